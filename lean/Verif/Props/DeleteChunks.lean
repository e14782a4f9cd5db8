import Verif.Props.NodesCrash
import Verif.Props.S3DeleteChunks

/-!
# Deleting an array on files: its chunks (C95)
-/

namespace Z5.Props
open Spec Prog

variable {Ty : ElemTypes} {C : Container} {L : Libs} {T : Tree Ty} {os : List (Path × DatasetObj)} {σ : Fs} {p : Path}

theorem run_look {α : Type} (p : Path) (nested : Bool) {k : Key} {g : Option Bytes → Option Bytes} (c : Option Bytes → Prog α)
    (h : ∀ v, g v = v) (σ : Fs) : ((Prog.act k g c).onFiles p nested).run σ =
      if isForeign (σ (chunkFile p k)) then (.throw .filesystemError, σ)
      else ((c (contentOf (σ (chunkFile p k)))).onFiles p nested).run σ := by
  have h0 : ¬ (g none).isSome = true := by rw [h]; decide
  rw [Prog.onFiles]
  simp only
  rw [if_neg h0, FsProg.run]
  by_cases hf : isForeign (σ (chunkFile p k)) = true
  · simp only [if_pos hf]
    rfl
  · have hσ : σ.set (chunkFile p k) ((g (contentOf (σ (chunkFile p k)))).map .file) = σ := funext fun q => by
      unfold Fs.set
      split
      · rename_i e
        rw [e, h]
        cases e2 : σ (chunkFile p k) with
        | none => rfl
        | some v =>
          rw [e2] at hf
          cases v with
          | dir => exact absurd rfl hf
          | doc _ => exact absurd rfl hf
          | file b => rfl
      · rfl
    simp only [if_neg hf, hσ]

theorem onFiles_readOnly_bind {α β : Type} (p : Path) (nested : Bool) (f : α → Prog β) : ∀ {t : Prog α}, ReadOnly t → ∀ σ : Fs,
    ((t >>= f).onFiles p nested).run σ = match ((t.onFiles p nested).run σ).1 with
      | .ok a => ((f a).onFiles p nested).run σ
      | .throw e => (.throw e, σ)
      | .ub => (.ub, σ)
  | .ret (.ok _), _, _ => rfl
  | .ret (.throw _), _, _ => rfl
  | .ret .ub, _, _ => rfl
  | .act k g c, h, σ => by
    have e : ((Prog.act k g c >>= f).onFiles p nested).run σ = ((Prog.act k g fun v => c v >>= f).onFiles p nested).run σ := rfl
    rw [e, run_look p nested _ h.1, run_look p nested _ h.1]
    by_cases hf : isForeign (σ (chunkFile p k)) = true
    · rw [if_pos hf, if_pos hf]
    · rw [if_neg hf, if_neg hf]
      exact onFiles_readOnly_bind p nested f (h.2 _) σ

/-- a program that runs alone -/
theorem files_alone {α : Type} : ∀ (t : FsProg α) {σ σ' : Fs} {r : Res α}, t.run σ = (r, σ') →
    ∃ is, FsProg.interleave is ([t], σ) = ([.ret r], σ')
  | .ret r', σ, σ', r, h => by
    have h : (r', σ) = (r, σ') := h
    cases h
    exact ⟨[], rfl⟩
  | .act f c, σ, σ', r, h => by
    obtain ⟨is, his⟩ := files_alone (c σ) (σ := f σ) h
    exact ⟨0 :: is, his⟩

/-- the dataset of an open object of an array -/
theorem array_object_files (hL : L.Lawful) {x : ArrayItem Ty} {o : DatasetObj} (h : C.ArrayAt L os σ p x) (ho : (p, o) ∈ os)
    (hm : o.handle.mode ≠ .r) : ∃ d, o.typed L (Ty.cast x.dtype) = .ok d ∧ d.WF ∧ d.PlainKeys ∧ d.base.canWrite = true ∧
      prod (blocksPerDimension d.base.shape d.base.chunkShape) < 2 ^ 64 ∧ o.handle.path = C.root ++ p ∧ d.base.fill = x.fill ∧
      Tidy (C.root ++ p) d.IsKey σ ∧ d.Intact (σ.chunks (C.root ++ p)) ∧ ∀ sd, d = .sharded sd → x.shards ≠ none := by
  have hw : o.handle.mode.canWrite = true := canWrite_of_ne hm
  rcases h with h | ⟨σ₀, a, A₀, os', ws, h⟩
  · obtain ⟨o₀, d₀, os', ws, h⟩ := h
    have hi := h.is
    obtain ⟨m, cfg, h1, h2, h3⟩ := h.sessions.carries (hi.law hL) hi.desc hi.typed hi.wf hi.keys
    have hs := h3 o (h.objects o ho)
    obtain ⟨t1, t2, _, _⟩ := hs.typed h1.self h1.shard (hi.law hL) hi.typed
    have hS := (AnyDataset.variant_holds (w := o.handle.mode.canWrite) t2).2 h2.holds
    refine ⟨d₀.variant o.keyCfg (L.codec (Ty.elem x.dtype).size o.settings) o.handle.mode.canWrite, t1, AnyDataset.variant_wf t2 hi.wf, AnyDataset.variant_plainKeys t2 hi.keys, by rw [AnyDataset.variant_base]; exact hw,
      by rw [AnyDataset.variant_base]; exact hi.fit, hs.path, ?_, by rw [AnyDataset.variant_isKey t2]; exact h2.tidy, ?_, fun sd hsd hno => ?_⟩
    · rw [AnyDataset.variant_base]
      exact (typed_fields hi.typed).2.1.trans hi.fill
    · cases d₀ with
      | plain ds => trivial
      | sharded sd => exact And.left hS
    · obtain ⟨ds, e⟩ := hi.plain hno
      rw [e] at hsd
      cases hsd
  · obtain ⟨f, v, e⟩ := h.now hL
    obtain ⟨d, g⟩ := e.objects o (h.objects o ho)
    obtain ⟨A', e1, e2⟩ := e.holds
    obtain ⟨S, hS, _⟩ := AnyDataset.Files.holds g.stands.wf ((g.files _ _).2 e1.elements)
    refine ⟨d, g.stands.typed, g.stands.wf, g.stands.plain, g.stands.base.2.2.trans hw, ?_, g.stands.path, g.fill.trans e.value.symm,
      g.key ▸ e1.tidy, ?_, fun sd hsd => ?_⟩
    · rw [g.stands.base.1, g.stands.base.2.1, h.is.shape, h.is.chunks]
      exact h.is.number
    · cases d with
      | plain ds => trivial
      | sharded sd => exact And.left hS
    · rw [h.is.shards, if_neg (g.shards sd hsd)]
      exact fun e => by cases e

theorem chunks_removed_files (hL : L.Lawful) {x : ArrayItem Ty} {o : DatasetObj} {d : AnyDataset (Ty.elem x.dtype)} (ho : (p, o) ∈ os)
    (hm : o.handle.mode ≠ .r) (hd : o.typed L (Ty.cast x.dtype) = .ok d) : ∀ {ts : List (Prog Unit)},
    (∀ t ∈ ts, ∃ (e : Prog Bool) (c : List Nat), ReadOnly e ∧ InGrid d.base.shape d.base.chunkShape c ∧ t = removeTask e (d.removeChunk c)) →
    ∀ {T : Tree Ty} {σ σ' : Fs} {B : List Nat → (Ty.elem x.dtype).T}, History C L Ty T os σ →
    T p = some (.array { x with content := B }) → FsProg.runEach (ts.map (·.onFiles (C.root ++ p) d.base.key.nested)) σ = (.ok (), σ') →
    ∃ T' A, History C L Ty T' os σ' ∧ T' p = some (.array { x with content := A }) ∧ (∀ q, q ≠ p → T' q = T q) ∧
      ∀ y, A y = B y ∨ A y = d.base.fill
  | [], _, T, σ, σ', B, h, hT, hw => by
    have hw : (Res.ok (), σ) = (Res.ok (), σ') := hw
    cases hw
    exact ⟨T, B, h, hT, fun _ _ => rfl, fun _ => .inl rfl⟩
  | t :: ts, hts, T, σ, σ', B, h, hT, hw => by
    rw [List.map_cons, FsProg.runEach] at hw
    obtain ⟨_, σ1, h1, h2⟩ := FsM.bind_ok.1 hw
    have h1 : (t.onFiles (C.root ++ p) d.base.key.nested).run σ = (.ok (), σ1) := h1
    obtain ⟨e, c, he, hc, rfl⟩ := hts _ (List.mem_cons_self ..)
    have hrest := fun t ht => hts t (List.mem_cons_of_mem _ ht)
    unfold removeTask at h1
    rw [onFiles_readOnly_bind _ _ _ he] at h1
    split at h1
    · rename_i a _
      cases a with
      | false =>
        have h1 : (Res.ok (), σ) = (Res.ok (), σ1) := h1
        cases h1
        exact chunks_removed_files hL ho hm hd hrest h hT h2
      | true =>
        have h1 : ((d.removeChunk c).onFiles (C.root ++ p) d.base.key.nested).run σ = (.ok (), σ1) := h1
        obtain ⟨is, his⟩ := files_alone _ h1
        have hp : d.Performs (C.root ++ p) ⟨mulV c d.base.chunkShape, d.stored c, fun _ => d.base.fill⟩ σ σ1 :=
          .remove c is hc ⟨[.ok ()], by
            show FsProg.Finished (FsProg.interleave is ([(d.removeChunk c).onFiles _ _], σ)).1 _
            rw [his]; rfl, (fun r hr => List.mem_singleton.1 hr), by
            show _ = (FsProg.interleave is ([(d.removeChunk c).onFiles _ _], σ)).2
            rw [his]⟩
        have hh := History.wrote h ho hT hm hd hp
        obtain ⟨T', A, g1, g2, g3, g4⟩ := chunks_removed_files hL ho hm hd hrest hh (Container.put_self _ _ _) h2
        refine ⟨T', A, g1, g2, fun q hq => ?_, fun y => ?_⟩
        · rw [g3 q hq, Container.put_other _ _ hq]
        · rcases g4 y with e | e
          · rw [e]
            unfold override
            split
            · exact .inr rfl
            · exact .inl rfl
          · exact .inr e
    · cases h1
    · cases h1

/-- **C95, the chunks of an array.**  `del` of an array first deletes its chunks one after the other, and then its directory.
(Each of these deletions succeeds if the array has no shards.)  If the process is killed while the chunks are deleted, the container is
intact: it has the same nodes and attributes, and every element of the array is as before or the fill value. -/
theorem c95_chunks (hL : L.Lawful) (h : History C L Ty T os σ) {x : ArrayItem Ty} {o : DatasetObj} (ho : (p, o) ∈ os)
    (hT : T p = some (.array x)) (hm : o.handle.mode ≠ .r) : ∃ ts : List (FsProg Unit),
    (∀ σ', o.removeDataset L (Ty.cast x.dtype) σ' = (FsProg.runEach ts >>= fun _ => o.handle.remove) σ') ∧
    (x.shards = none → ∀ n, ∃ σ', FsProg.runEach (ts.take n) σ = (.ok (), σ')) ∧
    ∀ n σ', FsProg.runEach (ts.take n) σ = (.ok (), σ') → ∃ A,
      History C L Ty (T.put p (.array { x with content := A })) os σ' ∧ ∀ y, A y = x.content y ∨ A y = x.fill := by
  obtain ⟨d, h1, h2, hk, h3, h4, hn, hf, htd, hI, hsd⟩ := array_object_files hL ((Container.inv_of_history hL h).array _ _ hT) ho hm
  obtain ⟨ts, h5, h6⟩ := AnyDataset.removeDataset_calls h2 h3 h4
  refine ⟨ts.map (·.onFiles (C.root ++ p) d.base.key.nested), fun σ' => ?_, fun hx n => ?_, fun n σ' hw => ?_⟩
  · unfold DatasetObj.removeDataset
    rw [FsM.bind_run, FsM.lift_run, h1]
    simp only
    rw [FsM.bind_run, FsM.lift_run, h5]
    simp only
    rw [hn]
  · rw [← List.map_take]
    obtain ⟨r, σ', e1, _, _, e2⟩ := runEach_calls hk (fun t ht => h6 t (List.mem_of_mem_take (i := n) ht)) htd hI
    rcases e2 with rfl | ⟨_, sd, e⟩
    · exact ⟨_, e1⟩
    · exact absurd hx (hsd sd e)
  · rw [← List.map_take] at hw
    obtain ⟨T', A, g1, g2, g3, g4⟩ := chunks_removed_files hL ho hm h1
      (fun t ht => readOnly_exists d h2 h3 h4 h5 t (List.mem_of_mem_take ht)) h hT hw
    rw [hf] at g4
    refine ⟨A, ?_, g4⟩
    have : T.put p (.array { x with content := A }) = T' := funext fun q => by
      by_cases e : q = p
      · rw [e, Container.put_self, g2]
      · rw [Container.put_other _ _ e, g3 q e]
    rw [this]
    exact g1

/-- A new array, of which some elements are written: if deleting it is interrupted before its directory is removed, its elements are those that
were written or the fill value, and the container is intact. -/
example : ∃ (T : Tree exTypes) (o : DatasetObj) (σ : Fs) (B : List Nat → U8.T) (ts : List (FsProg Unit)),
    History exC exLibs exTypes T [(["d"], o)] σ ∧ T ["d"] = some (.array { exItem with content := B }) ∧ B [2, 1] = (9 : Fin (256 ^ 1)) ∧
    ∀ n, ∃ (σ' : Fs) (A : List Nat → U8.T), FsProg.runEach (ts.take n) σ = (.ok (), σ') ∧
      History exC exLibs exTypes (T.put ["d"] (.array { exItem with content := A })) [(["d"], o)] σ' ∧
      ∀ y, A y = B y ∨ A y = exElem (.int 3) := by
  obtain ⟨o1, σ1, e1, m1, _, _, _, h1⟩ := (c66_create_array (exLibs_lawful _) exCfs_history (g := []) (key := ["d"]) ⟨_, rfl⟩
    (by decide) (by unfold PlainName; decide) ((Container.inv_of_history (exLibs_lawful _) exCfs_history).clear_of_group (p := []) ⟨_, rfl⟩)
    exItem_asked .a).2.2 (by decide) rfl
  obtain ⟨d, hd, hs, hw⟩ := c66_write (exLibs_lawful _) h1 (x := exItem) (exLibs_total _ _ _) (List.mem_singleton.2 rfl) rfl (by rw [m1]; decide)
  obtain ⟨ts, hts, hrun⟩ := hw (.scalar [1, 0] [3, 3] (9 : Fin (256 ^ 1))) (fun _ => (9 : Fin (256 ^ 1)))
    ⟨by rw [hs]; decide, trivial⟩ (fun _ _ => rfl) fun _ => []
  obtain ⟨is, rs, hfin⟩ := FsProg.exists_finished (d.onFiles (exC.root ++ ["d"]) ts, σ1)
  obtain ⟨h3, hok⟩ := hrun is rs hfin
  have h4 := h3 fun r hr => (hok r hr).elim id fun ⟨_, e⟩ => absurd rfl e
  obtain ⟨us, _, k2, k3⟩ := c95_chunks (exLibs_lawful _) h4 (p := ["d"]) (o := o1)
    (x := { exItem with content := override exItem.content [1, 0] [3, 3] fun _ => (9 : Fin (256 ^ 1)) }) (List.mem_singleton.2 rfl) rfl (by rw [m1]; decide)
  refine ⟨_, o1, _, _, us, h4, rfl, rfl, fun n => ?_⟩
  obtain ⟨σ', hσ⟩ := k2 rfl n
  obtain ⟨A, a1, a2⟩ := k3 n σ' hσ
  exact ⟨σ', A, hσ, a1, a2⟩

end Z5.Props
