import Verif.Proofs.Interrupted
import Verif.Props.Together
import Verif.Props.ForeignContainer

/-!
# C92: writing calls on a container on files that are interrupted
-/

namespace Z5.Props
open Spec Prog

variable {Ty : ElemTypes} {C : Container} {L : Libs} {T : Tree Ty} {os : List (Path × DatasetObj)} {σ : Fs} {js : List (WriteJob Ty)}

theorem documentFiles_meta {n : String} : n ∈ documentFiles ↔ MetaName n := by
  unfold documentFiles MetaName
  simp only [List.mem_cons, List.not_mem_nil, or_false]
  constructor
  · rintro (h | h | h | h | h) <;> simp [h]
  · rintro (h | h | h | h | h) <;> simp [h]

/-- what the tasks have done so far -/
theorem during_crash (hL : L.Lawful) (hI : C.Inv L T os σ) {l : List (WriteJob Ty × List (Key × Prog Unit))}
    (hl : ∀ e ∈ l, WriteJob.ReadyAs e L T os) (hp : l.Pairwise fun d e => d.1.Apart e.1) (crash : List Nat) :
    During (l.flatMap (WriteJob.fileJobs C)) σ (FsProg.interleave crash ((l.flatMap (WriteJob.fileJobs C)).map FileJob.task, σ)) ∧
    (FsProg.interleave crash ((l.flatMap (WriteJob.fileJobs C)).map FileJob.task, σ)).2.WF := by
  have hfit := WriteJob.all_fits hL hI hl
  have h0 : During (l.flatMap (WriteJob.fileJobs C)) σ ((l.flatMap (WriteJob.fileJobs C)).map FileJob.task, σ) := by
    refine ⟨by simp, ?_, fun r _ => .inl rfl⟩
    intro i j t hj ht
    simp only [List.getElem?_map, hj, Option.map_some, Option.some.injEq] at ht
    subst ht
    have := hfit j (List.mem_of_getElem? hj)
    exact ⟨j.prog, .same _, this.touches, this.tidy, rfl, fun e => e, fun e => .inr e⟩
  refine ⟨h0.interleave (fun j hj => (hfit j hj).flat) (WriteJob.all_apart hL hI hl hp) crash, ?_⟩
  refine FsProg.KeepsWF.interleave crash (fun t ht => ?_) hI.wf
  obtain ⟨u, _, rfl⟩ := List.mem_map.1 ht
  exact Prog.onFiles_keepsWF _ _ _

/-- **C92, files.**  Calls that write to the arrays of a container on files at the same time are interrupted at any step, in the middle of
writing a file if need be.  Everything that exists in the file system is as before the calls, or as the completed calls leave it, except that
files of chunks (or shards) that have elements of the written regions may be broken (or missing); no directory is lost, no
document appears, and the documents of the nodes are as before. -/
theorem c92_files (hL : L.Lawful) (h : History C L Ty T os σ) (hr : ∀ j ∈ js, j.Ready L T os) (ha : js.Pairwise WriteJob.Apart)
    {is : List Nat} {rs : List (Res Unit)} (hf : FsProg.Finished (FsProg.interleave is (js.flatMap (·.onFiles C), σ)).1 rs)
    (crash : List Nat) :
    (FsProg.interleave crash (js.flatMap (·.onFiles C), σ)).2.WF ∧
    (∀ q, (FsProg.interleave crash (js.flatMap (·.onFiles C), σ)).2 q = σ q ∨
      (FsProg.interleave crash (js.flatMap (·.onFiles C), σ)).2 q = (FsProg.interleave is (js.flatMap (·.onFiles C), σ)).2 q ∨
      (((FsProg.interleave crash (js.flatMap (·.onFiles C), σ)).2 q = none ∨
          ∃ b, (FsProg.interleave crash (js.flatMap (·.onFiles C), σ)).2 q = some (.file b)) ∧
        ∃ j ∈ js, ∃ c y, InRegion y j.write.off j.write.shape ∧ InChunk j.item.shape j.part c y ∧ C.ChunkFile T σ j.path c q)) ∧
    (∀ q, σ q = some .dir → (FsProg.interleave crash (js.flatMap (·.onFiles C), σ)).2 q = some .dir) ∧
    (∀ q j, (FsProg.interleave crash (js.flatMap (·.onFiles C), σ)).2 q = some (.doc j) → σ q = some (.doc j)) ∧
    ∀ p n, T p ≠ none → n ∈ documentFiles →
      (FsProg.interleave crash (js.flatMap (·.onFiles C), σ)).2 (C.root ++ p ++ [n]) = σ (C.root ++ p ++ [n]) := by
  have hI := Container.inv_of_history hL h
  obtain ⟨l, rfl, hl⟩ := exists_readyAs hL hI hr
  rw [flatMap_onFiles hl] at hf ⊢
  have hp := pairwise_fst ha
  obtain ⟨_, d1⟩ := done_of_finished hI.wf (WriteJob.all_fits hL hI hl) (WriteJob.all_apart hL hI hl hp) hf
  obtain ⟨hdur, hwf⟩ := during_crash hL hI hl hp crash
  generalize FsProg.interleave crash ((l.flatMap (WriteJob.fileJobs C)).map FileJob.task, σ) = c at hdur hwf ⊢
  have hfor : ∀ f ∈ l.flatMap (WriteJob.fileJobs C), isForeign (c.2 f.file) = false := by
    intro f hf
    obtain ⟨i, hi⟩ := List.getElem?_of_mem hf
    obtain ⟨t, ht⟩ : ∃ t, c.1[i]? = some t := by
      have : i < c.1.length := by rw [hdur.length]; exact (List.getElem?_eq_some_iff.1 hi).1
      exact ⟨_, List.getElem?_eq_getElem this⟩
    obtain ⟨s, ph⟩ := hdur.each i f t hi ht
    exact ph.tidy.files f.key rfl
  refine ⟨hwf, fun q => ?_, fun q hq => ?_, fun q j hq => ?_, fun p n hpn hn => ?_⟩
  · by_cases hq : ∃ j ∈ l.flatMap (WriteJob.fileJobs C), q = j.file
    · obtain ⟨f, hf, rfl⟩ := hq
      have hfor := hfor f hf
      obtain ⟨e, he, hfe⟩ := List.mem_flatMap.1 hf
      obtain ⟨x, y, hx⟩ := (hl e he).isChunkFile hL hI f hfe
      obtain ⟨k, hk, rfl⟩ := List.mem_map.1 hfe
      refine .inr (.inr ⟨?_, e.1, List.mem_map.2 ⟨e, he, rfl⟩, x, y, hx⟩)
      revert hfor
      unfold FileJob.file
      dsimp only
      cases c.2 (chunkFile (C.root ++ e.1.path) k.1) with
      | none => exact fun _ => .inl rfl
      | some v =>
        cases v with
        | dir => exact fun e => by cases e
        | file b => exact fun _ => .inr ⟨b, rfl⟩
        | doc j => exact fun e => by cases e
    · rcases hdur.others q (fun j hj e => hq ⟨j, hj, e⟩) with e | ⟨e, hm⟩
      · exact .inl e
      · exact .inr (.inl (by rw [e, d1.dirs q (fun j hj e => hq ⟨j, hj, e⟩) hm]))
  · rcases hdur.others q (fun j hj e => by
      have := ((WriteJob.all_fits hL hI hl j hj).tidy).files j.key rfl
      rw [show chunkFile j.dir j.key = q from e.symm, hq] at this
      cases this) with e | ⟨e, _⟩
    · rw [e]; exact hq
    · exact e
  · rcases hdur.others q (fun f hf e => by
      have := hfor f hf
      rw [← e, hq] at this
      cases this) with e | ⟨e, _⟩
    · rw [← e]; exact hq
    · rw [hq] at e; cases e
  · have hn := documentFiles_meta.1 hn
    have hw : ∀ f ∈ l.flatMap (WriteJob.fileJobs C), ¬ C.root ++ p ++ [n] <+: f.file := by
      intro f hf
      obtain ⟨e, he, hfe⟩ := List.mem_flatMap.1 hf
      exact (hl e he).way hI hfe hpn hn
    rcases hdur.others (C.root ++ p ++ [n]) (fun j hj e => hw j hj (e ▸ List.prefix_refl _)) with e | ⟨_, j, hj, hm⟩
    · exact e
    · exact absurd hm.2.1 (hw j hj)

/-- After an interruption the broken files can be removed: they are files of chunks. -/
theorem c92_cleaned (hL : L.Lawful) (h : History C L Ty T os σ) (hr : ∀ j ∈ js, j.Ready L T os) (ha : js.Pairwise WriteJob.Apart)
    {is : List Nat} {rs : List (Res Unit)} (hf : FsProg.Finished (FsProg.interleave is (js.flatMap (·.onFiles C), σ)).1 rs)
    (crash : List Nat) :
    ∃ σ'', C.Cleaned T σ (FsProg.interleave is (js.flatMap (·.onFiles C), σ)).2
      (FsProg.interleave crash (js.flatMap (·.onFiles C), σ)).2 σ'' := by
  obtain ⟨_, g, _⟩ := c92_files hL h hr ha hf crash
  generalize (FsProg.interleave crash (js.flatMap (·.onFiles C), σ)).2 = σ' at g ⊢
  generalize (FsProg.interleave is (js.flatMap (·.onFiles C), σ)).2 = σ₁ at g ⊢
  obtain ⟨σ'', hσ⟩ : ∃ σ'' : Fs, ∀ q, (σ' q = σ q ∨ σ' q = σ₁ q → σ'' q = σ' q) ∧ (¬ (σ' q = σ q ∨ σ' q = σ₁ q) → σ'' q = none) := by
    have key : ∀ q, ∃ v : Option Entry, (σ' q = σ q ∨ σ' q = σ₁ q → v = σ' q) ∧ (¬ (σ' q = σ q ∨ σ' q = σ₁ q) → v = none) := by
      intro q
      by_cases e : σ' q = σ q ∨ σ' q = σ₁ q
      · exact ⟨σ' q, fun _ => rfl, fun e' => absurd e e'⟩
      · exact ⟨none, fun e' => absurd e' e, fun _ => rfl⟩
    exact Classical.axiomOfChoice key
  refine ⟨σ'', fun q => ?_, fun q => ?_⟩
  · by_cases e : σ' q = σ q ∨ σ' q = σ₁ q
    · exact .inl ((hσ q).1 e)
    · rcases g q with e' | e' | ⟨_, j, _, c, _, _, _, hc⟩
      · exact absurd (.inl e') e
      · exact absurd (.inr e') e
      · exact .inr ⟨(hσ q).2 e, _, c, hc⟩
  · by_cases e : σ' q = σ q ∨ σ' q = σ₁ q
    · rw [(hσ q).1 e]
      exact e.imp id .inl
    · exact .inr (.inr ((hσ q).2 e))

/-- **C92, a container.**  Calls that write to the arrays of a container on files at the same time (`js`; they would succeed, `is`, and lead
to the tree `T₁`) are interrupted at any step, and the process ends (`crash`).  If then the files of chunks that are neither old nor complete
are removed, and possibly other files of chunks, the files are, whatever texts stand for the documents, a container of the format, and its life
can go on: it has all groups, arrays and attributes, and every chunk (or shard) of an array has the old elements, or the new ones, or, if it
has no file, the fill value. -/
theorem c92_crash (hL : L.Lawful) (hC : C.Ok) (h : History C L Ty T os σ) (hr : ∀ j ∈ js, j.Ready L T os)
    (ha : js.Pairwise WriteJob.Apart) {is : List Nat} {rs : List (Res Unit)}
    (hf : FsProg.Finished (FsProg.interleave is (js.flatMap (·.onFiles C), σ)).1 rs) (hok : ∀ r ∈ rs, r = .ok ()) :
    ∃ T₁, History C L Ty T₁ os (FsProg.interleave is (js.flatMap (·.onFiles C), σ)).2 ∧
      (∀ p, (∀ j ∈ js, j.path ≠ p) → T₁ p = T p) ∧
      (∀ j ∈ js, ∃ A, T₁ j.path = some (.array { j.item with content := A }) ∧
        (∀ y, InBox y j.item.shape → InRegion y j.write.off j.write.shape → A y = j.write.val (subV y j.write.off)) ∧
        ∀ y, (∀ k ∈ js, k.path = j.path → ¬ InRegion y k.write.off k.write.shape) → A y = j.item.content y) ∧
      ∀ (crash : List Nat) (σ'' : Fs), C.Cleaned T σ (FsProg.interleave is (js.flatMap (·.onFiles C), σ)).2
          (FsProg.interleave crash (js.flatMap (·.onFiles C), σ)).2 σ'' →
        ∀ R : RawFs, R.Stores σ'' →
          ∃ T', T.Salvaged (fun p c => ∃ q, C.ChunkFile T σ p c q ∧ σ'' q = none ∧ σ q ≠ none ∧
              (FsProg.interleave is (js.flatMap (·.onFiles C), σ)).2 q ≠ none) T₁ T' ∧ R.HoldsContainer C L T' ∧
            History C L Ty T' [] R.view := by
  have hI := Container.inv_of_history hL h
  obtain ⟨T₁, k1, k2, k3⟩ := c88_together hL h hr ha hf hok
  refine ⟨T₁, k1, k2, k3, fun crash σ'' hcl R hR => ?_⟩
  have hI₁ := Container.inv_of_history hL k1
  obtain ⟨w, g2, hdir', _, g3⟩ := c92_files hL h hr ha hf crash
  obtain ⟨_, _, _, _, g3'⟩ := c92_files hL h hr ha hf is
  have harr : ∀ p x, T p = some (.array x) → ∃ B, T₁ p = some (.array { x with content := B }) := by
    intro p x hx
    by_cases hj : ∃ j ∈ js, j.path = p
    · obtain ⟨j, hj, rfl⟩ := hj
      rw [(hr j hj).item] at hx
      cases hx
      obtain ⟨A, hA, _⟩ := k3 j hj
      exact ⟨A, hA⟩
    · exact ⟨x.content, by rw [k2 p fun j hj' e => hj ⟨j, hj', e⟩]; exact hx⟩
  generalize (FsProg.interleave crash (js.flatMap (·.onFiles C), σ)).2 = σ' at *
  generalize (FsProg.interleave is (js.flatMap (·.onFiles C), σ)).2 = σ₁ at *
  -- chunk files are no directories
  have hfile : ∀ p c q, C.ChunkFile T σ p c q → isDirectory (σ q) = false ∧ isDirectory (σ' q) = false ∧ ∀ r n, MetaName n → q ≠ r ++ [n] := by
    intro p c q hq
    have hf : ∀ {v : Option Entry}, isForeign v = false → isDirectory v = false := by
      intro v hv
      cases v with
      | none => rfl
      | some y => cases y <;> first | rfl | cases hv
    have hp : T p ≠ none := by
      obtain ⟨x, _, _, hx, _⟩ := hq
      rw [hx]
      exact fun e => by cases e
    have h0 := hq.file hL hI
    have h1 := (hq.congr (harr p) fun n hn => g3' p n hp (documentFiles_meta.2 hn)).file hL hI₁
    refine ⟨hf h0.1, ?_, h0.2⟩
    rcases g2 q with e | e | ⟨e, _⟩
    · rw [e]; exact hf h0.1
    · rw [e]; exact hf h1.1
    · rcases e with e | ⟨b, e⟩ <;> rw [e] <;> rfl
  have hdir : ∀ q, σ' q = some .dir → σ'' q = some .dir := by
    intro q hq
    rcases hcl.kept q with e | ⟨_, p, c, hc⟩
    · rw [e]; exact hq
    · have := (hfile p c q hc).2.1
      rw [hq] at this
      cases this
  obtain ⟨T', t1, t2⟩ := hI.mend hL hC hI₁ (fun p hp => k2 p fun j hj e => hp j.item (e ▸ (hr j hj).item))
    harr (fun p n hp hn => g3' p n hp (documentFiles_meta.2 hn))
    (fun p n hp hn => by
      rcases hcl.kept (C.root ++ p ++ [n]) with e | ⟨_, p', c, hc⟩
      · rw [e]; exact g3 p n hp (documentFiles_meta.2 hn)
      · exact absurd rfl ((hfile p' c _ hc).2.2 _ n hn))
    (fun q hq => hdir q (hdir' q hq))
    (fun p q hq hne => by
      rcases hcl.kept (p ++ q) with e | ⟨e, _⟩
      · exact hdir p (w p q hq (by rw [← e]; exact hne))
      · exact absurd e hne)
    hcl.whole hR
  exact ⟨T', t1, t2, .found t2 hC⟩

/-! ### Example -/

/-- there are bytes for files whose documents are those of a state that has bytes -/
theorem stores_exists {R₀ : RawFs} {σ σ'' : Fs} (h : R₀.Stores σ) (hd : ∀ q j, σ'' q = some (.doc j) → σ q = some (.doc j)) :
    ∃ R : RawFs, R.Stores σ'' := by
  refine ⟨fun q => match σ'' q with
    | none => none
    | some .dir => some .dir
    | some (.file b) => some (.file b)
    | some (.doc _) => R₀ q, fun q => ?_⟩
  cases e : σ'' q with
  | none => simp only; rw [e]
  | some v =>
    cases v with
    | dir => simp only; rw [e]
    | file b => simp only; rw [e]
    | doc j =>
      have := h q
      rw [hd q j e] at this
      obtain ⟨bom, t, h1, h2, h3⟩ := this
      refine ⟨bom, t, h1, h2, ?_⟩
      unfold RawFs.content at h3 ⊢
      simp only
      rw [e]
      exact h3

theorem exFound_paths {q : Path} (hq : exFound q ≠ none) : q = [] ∨ q = ["c.n5"] ∨ q = ["c.n5", "g"] ∨ q = ["c.n5", "attributes.json"] ∨
    q = ["c.n5", "g", "d"] ∨ q = ["c.n5", "g", "d", "attributes.json"] ∨ q = ["c.n5", "g", "d", "0"] := by
  unfold exFound at hq
  split at hq
  · rename_i e
    rcases e with e | e | e <;> simp [e]
  · split at hq
    · rename_i e; simp [e]
    · split at hq
      · split at hq
        · exact absurd rfl hq
        · unfold exForeign at hq
          split at hq
          · rename_i e
            rcases e with e | e <;> simp_all
          · split at hq
            · rename_i e; simp [e]
            · split at hq
              · rename_i e; simp [e]
              · exact absurd rfl hq
      · exact absurd rfl hq

theorem exFound_stores : exFound.Stores exFound.view := by
  have hdir : ∀ q, exFound q = some .dir → exFound.view q = some .dir := fun q e => RawFs.view_dir.2 e
  have hdoc : ∀ p n j, n ∈ documentFiles → exFound.HasText (p ++ [n]) j → exFound.view (p ++ [n]) = some (.doc j) :=
    fun p n j hn h => h.view hn
  intro q
  cases hq : exFound q with
  | none => rw [RawFs.view_none.2 hq]
  | some v =>
    rcases exFound_paths (q := q) (by rw [hq]; exact fun e => by cases e) with e | e | e | e | e | e | e
    · subst e; rw [hdir _ rfl]; rw [← hq]; rfl
    · subst e; rw [hdir _ rfl]; rw [← hq]; rfl
    · subst e; rw [hdir _ rfl]; rw [← hq]; rfl
    · have ht : exFound.HasText (["c.n5"] ++ ["attributes.json"]) (.obj [("n5", .str "4.0.0"), ("by", .str "n5-java")]) :=
        c83_text exactDigits_lawful (j := .obj [("n5", .str "4.0.0"), ("by", .str "n5-java")]) ⟨by decide, trivial, trivial, trivial⟩ (.inr (.inr rfl)) rfl
      subst e
      rw [show ["c.n5", "attributes.json"] = ["c.n5"] ++ ["attributes.json"] from rfl, hdoc _ _ _ (by decide) ht]
      exact ht
    · subst e; rw [hdir _ rfl]; rw [← hq]; rfl
    · have ht : exFound.HasText (["c.n5", "g", "d"] ++ ["attributes.json"]) (exForeignDoc [("unit", .str "nm")]) := by
        obtain ⟨bom, t, h1, h2, h3⟩ := exForeign_text exForeign_plain_unit
        refine ⟨bom, t, h1, h2, ?_⟩
        unfold RawFs.content at h3 ⊢
        rw [show ["c.n5", "g", "d"] ++ ["attributes.json"] = "c.n5" :: "g" :: ["d", "attributes.json"] from rfl, exFound_below (by simp)]
        exact h3
      subst e
      rw [show ["c.n5", "g", "d", "attributes.json"] = ["c.n5", "g", "d"] ++ ["attributes.json"] from rfl, hdoc _ _ _ (by decide) ht]
      exact ht
    · subst e
      have : exFound.view ["c.n5", "g", "d", "0"] = some (.file [0, 0, 0, 1, 0, 0, 0, 2, 5, 6]) := by
        rw [RawFs.view_file (by decide)]
        rfl
      rw [this]
      show some v = _
      rw [← hq]
      rfl

/-- The container of another program of C85: `d[:] = 9` is interrupted.  One can clean up, there are bytes that the files may have then, and
whatever they are, they are a container of N5 with the array `g/d`; each of its two chunks has the old elements (5, 6 and 0) or the new ones,
or the fill value. -/
example : ∃ (os : List (Path × DatasetObj)) (j : WriteJob exTypes) (σ₁ : Fs), j.Ready exLibs exFoundTree os ∧
    j.write = ⟨[0], [3], fun _ => (9 : Fin (256 ^ 1))⟩ ∧
    (∃ is rs, FsProg.Finished (FsProg.interleave is (j.onFiles exFoundC, exFound.view)).1 rs ∧
      σ₁ = (FsProg.interleave is (j.onFiles exFoundC, exFound.view)).2) ∧
    ∀ crash : List Nat,
      (∃ (σ'' : Fs) (R : RawFs), exFoundC.Cleaned exFoundTree exFound.view σ₁
        (FsProg.interleave crash (j.onFiles exFoundC, exFound.view)).2 σ'' ∧ R.Stores σ'') ∧
      ∀ (σ'' : Fs), exFoundC.Cleaned exFoundTree exFound.view σ₁ (FsProg.interleave crash (j.onFiles exFoundC, exFound.view)).2 σ'' →
        ∀ R : RawFs, R.Stores σ'' →
        ∃ (T' : Tree exTypes) (A : List Nat → U8.T), R.HoldsContainer exFoundC exLibs T' ∧
          T' ["g", "d"] = some (.array { exFoundItem with content := A }) ∧
          ((A [0] = (5 : Fin (256 ^ 1)) ∧ A [1] = (6 : Fin (256 ^ 1))) ∨ (A [0] = (9 : Fin (256 ^ 1)) ∧ A [1] = (9 : Fin (256 ^ 1))) ∨
            (A [0] = (0 : Fin (256 ^ 1)) ∧ A [1] = (0 : Fin (256 ^ 1)))) ∧
          (A [2] = (0 : Fin (256 ^ 1)) ∨ A [2] = (9 : Fin (256 ^ 1))) := by
  have hL := exLibs_lawful
  have hC : exFoundC.Ok := fun e => by cases e
  have h0 : History exFoundC exLibs exTypes exFoundTree [] exFound.view := .found exFound_holds hC
  have hstores := exFound_stores
  have hx : exFoundTree ([] ++ ["g", "d"]) = some (.array exFoundItem) := rfl
  have hc : exFoundTree.Clear ([] ++ ["g", "d"]) := (Container.found_inv exFound_holds hC).clear_of_some (fun e => by cases e)
  have hg := c66_getitem (hL _) h0 (g := []) ⟨_, rfl⟩ ⟨false, ["g", "d"]⟩ hc .a
  rw [show exFoundTree ([] ++ (⟨false, ["g", "d"]⟩ : PyName).parts) = some (.array exFoundItem) from rfl] at hg
  obtain ⟨o, _, hm, _, _, _, h1⟩ := hg
  generalize exFound.view = σ at *
  obtain ⟨os, hos⟩ : ∃ os, os = [([] ++ ["g", "d"], o)] := ⟨_, rfl⟩
  replace h1 : History exFoundC exLibs exTypes exFoundTree os σ := by rw [hos]; exact h1
  have hmem : (["g", "d"], o) ∈ os := by rw [hos]; exact List.mem_cons_self ..
  obtain ⟨d, hd, hs, hw⟩ := c66_write (hL _) h1 (p := ["g", "d"]) (o := o) (x := exFoundItem) (exLibs_total _ _ _) hmem hx
    (by rw [hm]; decide)
  have hv : RegionOk exFoundItem.shape [0] [3] := by decide
  obtain ⟨ts, hts, _⟩ := hw (.scalar [0] [3] (9 : Fin (256 ^ 1))) (fun _ => (9 : Fin (256 ^ 1)))
    ⟨by rw [hs]; exact hv, trivial⟩ (fun _ _ => rfl) fun _ => []
  have hready : ∀ j ∈ [(⟨["g", "d"], o, exFoundItem, d, ⟨[0], [3], fun _ => (9 : Fin (256 ^ 1))⟩, ts⟩ : WriteJob exTypes)],
      j.Ready exLibs exFoundTree os := by
    intro j hj
    rw [List.mem_singleton] at hj
    subst hj
    exact ⟨hmem, hx, by rw [hm]; decide, hd, .region (.scalar [0] [3] _) _ _ _ ⟨by rw [hs]; exact hv, trivial⟩ (fun _ _ => rfl) hts⟩
  have hap : [(⟨["g", "d"], o, exFoundItem, d, ⟨[0], [3], fun _ => (9 : Fin (256 ^ 1))⟩, ts⟩ : WriteJob exTypes)].Pairwise
    WriteJob.Apart := List.pairwise_singleton ..
  obtain ⟨is, rs, hf⟩ := FsProg.exists_finished ([(⟨["g", "d"], o, exFoundItem, d, ⟨[0], [3], fun _ => (9 : Fin (256 ^ 1))⟩, ts⟩ : WriteJob exTypes)].flatMap (·.onFiles exFoundC), σ)
  have hsucc := c88_succeeds (hL _) h1 hready hap (fun j _ => exLibs_total _ _ _) (by
    intro j hj
    rw [List.mem_singleton] at hj
    subst hj
    exact ⟨_, _, ⟨by rw [hs]; exact hv, trivial⟩, hts⟩) hf
  have hok : ∀ r ∈ rs, r = .ok () := fun r hr => (hsucc r hr).resolve_right (by
    rintro ⟨_, j, hj, hne⟩
    rw [List.mem_singleton] at hj
    subst hj
    exact hne rfl)
  obtain ⟨T₁, _, _, k3, k4⟩ := c92_crash (hL _) hC h1 hready hap hf hok
  refine ⟨os, (⟨["g", "d"], o, exFoundItem, d, ⟨[0], [3], fun _ => (9 : Fin (256 ^ 1))⟩, ts⟩ : WriteJob exTypes),
    (FsProg.interleave is ((⟨["g", "d"], o, exFoundItem, d, ⟨[0], [3], fun _ => (9 : Fin (256 ^ 1))⟩, ts⟩ : WriteJob exTypes).onFiles exFoundC, σ)).2,
    hready _ (List.mem_cons_self ..), rfl, ⟨is, rs, by rw [List.flatMap_singleton] at hf; exact hf, rfl⟩, fun crash => ?_⟩
  have hcr := k4 crash
  obtain ⟨σ'', hcl⟩ := c92_cleaned (hL _) h1 hready hap hf crash
  obtain ⟨_, _, _, hdocs, _⟩ := c92_files (hL _) h1 hready hap hf crash
  rw [List.flatMap_singleton] at hcr hcl hdocs
  obtain ⟨R₁, hR₁⟩ := stores_exists (σ'' := σ'') hstores (fun q j e => by
    rcases hcl.kept q with e' | ⟨e', _⟩
    · exact hdocs q j (e'.symm.trans e)
    · rw [e] at e'; cases e')
  refine ⟨⟨σ'', R₁, hcl, hR₁⟩, fun σ'' hcl R hR => ?_⟩
  obtain ⟨T', t1, t2, _⟩ := hcr σ'' hcl R hR
  obtain ⟨B', b1, b2, _⟩ := k3 _ (List.mem_cons_self ..)
  have t1 := t1 ["g", "d"]
  rw [show exFoundTree ["g", "d"] = some (.array exFoundItem) from rfl] at t1
  obtain ⟨B, A, a1, a2, a3⟩ := t1
  have eB : B' = B := by
    have := b1.symm.trans a1
    injection this with this; injection this with this
    exact eq_of_heq (ArrayItem.mk.inj this).2.2.2.2.2.1
  subst eB
  have ex : ∀ (a b : Fin (256 ^ 1)), U8.ceq a b = true → a = b := fun a b h => of_decide_eq_true (p := a = b) h
  have hB : ∀ i, i < 3 → B' [i] = (9 : Fin (256 ^ 1)) := fun i hi => b2 [i] ⟨hi, trivial⟩ ⟨⟨Nat.zero_le _, by simpa using hi⟩, trivial⟩
  refine ⟨T', A, t2, a2, ?_, ?_⟩
  · rcases a3 [0] with h | h | ⟨_, h⟩
    · exact .inl ⟨(sameOrFill_iff ex).1 (h [0] (by decide)), (sameOrFill_iff ex).1 (h [1] (by decide))⟩
    · exact .inr (.inl ⟨((sameOrFill_iff ex).1 (h [0] (by decide))).trans (hB 0 (by decide)),
        ((sameOrFill_iff ex).1 (h [1] (by decide))).trans (hB 1 (by decide))⟩)
    · exact .inr (.inr ⟨h [0] (by decide), h [1] (by decide)⟩)
  · rcases a3 [1] with h | h | ⟨_, h⟩
    · exact .inl ((sameOrFill_iff ex).1 (h [2] (by decide)))
    · exact .inr (((sameOrFill_iff ex).1 (h [2] (by decide))).trans (hB 2 (by decide)))
    · exact .inl (h [2] (by decide))

end Z5.Props
