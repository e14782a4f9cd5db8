import Verif.Props.Schedule

/-!
# C39, C40: crashes

A crash point of a call is a schedule that does not need to have finished the tasks; writes go to the file
byte by byte (see `Prog.storeWrite`).
-/

namespace Z5.Props
open Z5 Spec Prog

variable {E : Elem} {ds : Dataset E}

/-- task `j` is over -/
def TaskDone {α : Type} (ts : List (Prog α)) (j : Nat) (r : Res α) : Prop := ts[j]? = some (.ret r)

/-- task `j` is not over -/
def TaskRunning {α : Type} (ts : List (Prog α)) (j : Nat) : Prop :=
  ∃ k f c, ts[j]? = some (.act k f c)

theorem outcome_some {α : Type} {p : Prog α} {r : Res α} : outcome p = some r ↔ p = .ret r := by
  cases p <;> simp [outcome]

/-- what `interleave_states` says about the tasks of a region write -/
theorem crash_tasks (h : ds.WF) {rb rs : List Nat} (hr : RegionOk ds.shape rb rs) (fr : FillRequest E)
    (scratch : Nat → List E.T) (σ : Store) (is : List Nat) :
    (∀ k, (∀ c, Touches ds rb rs c → ds.chunkKey c ≠ k) →
      (interleave is ((ds.jobs fr rb rs scratch).map Prod.snd, σ)).2 k = σ k) ∧
    ∀ (j : Nat) c, (overlapList ds.chunkShape rb rs)[j]? = some c →
      ∃ p', (interleave is ((ds.jobs fr rb rs scratch).map Prod.snd, σ)).1[j]? = some p' ∧
      Torn ds.backend (σ (ds.chunkKey c)) (exec1 (ds.writeTask fr rb rs c (scratch j)) (σ (ds.chunkKey c))).2
        ((interleave is ((ds.jobs fr rb rs scratch).map Prod.snd, σ)).2 (ds.chunkKey c)) ∧
      (j ∉ is → (interleave is ((ds.jobs fr rb rs scratch).map Prod.snd, σ)).2 (ds.chunkKey c) =
        σ (ds.chunkKey c)) ∧
      (∀ r, p' = .ret r → exec1 (ds.writeTask fr rb rs c (scratch j)) (σ (ds.chunkKey c)) =
        (r, (interleave is ((ds.jobs fr rb rs scratch).map Prod.snd, σ)).2 (ds.chunkKey c))) := by
  have hok := jobsOk h hr fr scratch
  obtain ⟨h1, h2⟩ := interleave_states is (c := ((ds.jobs fr rb rs scratch).map Prod.snd, σ)) hok.isolated
  refine ⟨?_, ?_⟩
  · intro k hk
    refine h1 k fun j hj => ?_
    have hj' : j < ((ds.jobs fr rb rs scratch).map Prod.fst).length := by simpa using hj
    simp only [List.getD_eq_getElem?_getD, List.getElem?_eq_getElem hj', Option.getD_some]
    have hm := List.getElem_mem hj'
    generalize ((ds.jobs fr rb rs scratch).map Prod.fst)[j] = y at hm ⊢
    rw [map_fst_jobs] at hm
    obtain ⟨c, hc, rfl⟩ := List.mem_map.1 hm
    exact hk c ((h.mem_overlap hr).1 hc)
  · intro j c hc
    have hkey : ((ds.jobs fr rb rs scratch).map Prod.fst).getD j [] = ds.chunkKey c := by
      rw [map_fst_jobs, List.getD_eq_getElem?_getD, List.getElem?_map, hc]
      rfl
    have hp : ((ds.jobs fr rb rs scratch).map Prod.snd)[j]? =
        some (ds.writeTask fr rb rs c (scratch j)) := by
      rw [map_snd_jobs, List.getElem?_mapIdx, hc]
      rfl
    obtain ⟨p', g1, g2, g3, g4⟩ := h2 j _ hp
    simp only [hkey] at g2 g3 g4
    exact ⟨p', g1, states_writeTask _ _ _ _ _ _ g2, g3, fun r hr => g4 r (outcome_some.2 hr)⟩

/-- **C39, files.** A region write (on any store, even a damaged one) is interrupted at any point.  There is
one task per chunk overlapping the region; every file that is not the file of such a chunk is unchanged; the
file of a chunk whose task has not been scheduled is unchanged; the file of a chunk whose task is over is
what the completed call would leave; and the file of a chunk in progress is the old file, or the removed
file, or a prefix of the file that the completed call would leave. -/
theorem c39_crash_files (h : ds.WF) {call : RegionCall E} (hv : RegionOk ds.shape call.off call.shape)
    {scratch : Nat → List E.T} {ts : List (Prog Unit)} (hts : call.start ds scratch = .ok ts)
    (σ : Store) (crash : List Nat)
    {full : List Nat} {rs : List (Res Unit)} (hfull : Finished (interleave full (ts, σ)).1 rs) :
    ∃ cs : List (List Nat), cs.Nodup ∧ cs.length = ts.length ∧
      (∀ c, c ∈ cs ↔ ∃ x, InRegion x call.off call.shape ∧ InChunk ds.shape ds.chunkShape c x) ∧
      (∀ k, (∀ c ∈ cs, ds.chunkKey c ≠ k) → (interleave crash (ts, σ)).2 k = σ k) ∧
      ∀ (j : Nat) c, cs[j]? = some c →
        (j ∉ crash → (interleave crash (ts, σ)).2 (ds.chunkKey c) = σ (ds.chunkKey c)) ∧
        (∀ r, TaskDone (interleave crash (ts, σ)).1 j r → rs[j]? = some r ∧
          (interleave crash (ts, σ)).2 (ds.chunkKey c) = (interleave full (ts, σ)).2 (ds.chunkKey c)) ∧
        ((interleave crash (ts, σ)).2 (ds.chunkKey c) = σ (ds.chunkKey c) ∨
         ((interleave crash (ts, σ)).2 (ds.chunkKey c) = none ∧
          (interleave full (ts, σ)).2 (ds.chunkKey c) = none) ∨
         ∃ b n, (interleave full (ts, σ)).2 (ds.chunkKey c) = some b ∧ n ≤ b.length ∧
          (interleave crash (ts, σ)).2 (ds.chunkKey c) = some (b.take n)) := by
  rw [RegionCall.start_eq, writeRegion_jobs h hv] at hts
  cases hts
  obtain ⟨h1, h2⟩ := crash_tasks h hv (RegionCall.request call) scratch σ crash
  obtain ⟨f1, f2⟩ := finished_jobs (jobsOk h hv _ _) hfull
  refine ⟨overlapList ds.chunkShape call.off call.shape, nodup_overlapList h.dims hv, ?_, ?_, ?_, ?_⟩
  · rw [map_snd_jobs, List.length_mapIdx]
  · intro c; exact h.mem_overlap hv
  · intro k hk
    exact h1 k fun c hc => hk c ((h.mem_overlap hv).2 hc)
  · intro j c hc
    obtain ⟨p', g1, g2, g3, g4⟩ := h2 j c hc
    have hjob : (ds.jobs (RegionCall.request call) call.off call.shape scratch)[j]? =
        some (ds.chunkKey c, ds.writeTask (RegionCall.request call) call.off call.shape c (scratch j)) := by
      unfold Dataset.jobs
      rw [List.getElem?_mapIdx, hc]
      rfl
    have hfin := finalOf_mem (jobsOk h hv _ _) (List.mem_of_getElem? hjob) σ
    simp only at hfin
    rw [f1, hfin]
    refine ⟨g3, ?_, ?_⟩
    · intro r hr
      rw [TaskDone, g1] at hr
      have := g4 r (Option.some.inj hr)
      rw [this]
      refine ⟨?_, rfl⟩
      rw [f2, List.getElem?_map, hjob, Option.map_some]
      simp only [this]
    · rcases g2.prefix with h' | ⟨h', h''⟩ | ⟨b, n, h3, h4, h5⟩
      · exact Or.inl h'
      · exact Or.inr (Or.inl ⟨h', h''⟩)
      · exact Or.inr (Or.inr ⟨b, n, h4, h3, h5⟩)

/-- array and good chunks after a crash -/
theorem crash_refines (h : ds.WF) (hw : ds.canWrite = true) {σ : Store} {A : List Nat → E.T}
    (hA : Holds ds σ A) {call : RegionCall E} (hv : call.Valid ds) (scratch : Nat → List E.T)
    (crash : List Nat) {ts : List (Prog Unit)} (hts : call.start ds scratch = .ok ts) :
    ∃ cs : List (List Nat), cs.length = ts.length ∧
      (∀ c, c ∈ cs ↔ ∃ x, InRegion x call.off call.shape ∧ InChunk ds.shape ds.chunkShape c x) ∧
      ∃ A' : List Nat → E.T,
      (∀ c, InGrid ds.shape ds.chunkShape c →
        ¬ (∃ j, cs[j]? = some c ∧ j ∈ crash ∧ TaskRunning (interleave crash (ts, σ)).1 j) →
        BlobOk ds c ((interleave crash (ts, σ)).2 (ds.chunkKey c)) A') ∧
      (∀ (j : Nat) c x, cs[j]? = some c → TaskDone (interleave crash (ts, σ)).1 j (.ok ()) →
        InStored ds c x → SameOrFill E.ceq ds.fill (A' x)
          (override A call.off call.shape (RegionCall.val ds.fill call) x)) ∧
      (∀ c x, InGrid ds.shape ds.chunkShape c → InStored ds c x →
        ¬ (∃ j, cs[j]? = some c ∧ j ∈ crash ∧ TaskRunning (interleave crash (ts, σ)).1 j) →
        (∀ j, cs[j]? = some c → ¬ TaskDone (interleave crash (ts, σ)).1 j (.ok ())) →
        SameOrFill E.ceq ds.fill (A' x) (A x)) := by
  rw [RegionCall.start_eq, writeRegion_jobs h hv.1] at hts
  cases hts
  obtain ⟨h1, h2⟩ := crash_tasks h hv.1 (RegionCall.request call) scratch σ crash
  have hmem := fun c => h.mem_overlap (c := c) hv.1
  refine ⟨overlapList ds.chunkShape call.off call.shape, by rw [map_snd_jobs, List.length_mapIdx],
    fun c => hmem c, ?_⟩
  generalize hcs : overlapList ds.chunkShape call.off call.shape = cs at *
  have hnd : cs.Nodup := by rw [← hcs]; exact nodup_overlapList h.dims hv.1
  generalize hS : interleave crash
    ((ds.jobs (RegionCall.request call) call.off call.shape scratch).map Prod.snd, σ) = X at *
  -- the chunks whose task has succeeded
  let done : List Nat → Prop := fun c => ∃ j : Nat, cs[j]? = some c ∧ TaskDone X.1 j (.ok ())
  have : ∀ c, Decidable (done c) := fun c => Classical.propDecidable _
  let B : List Nat → E.T := fun x =>
    if done (divV x ds.chunkShape) then
      override A call.off call.shape (RegionCall.val ds.fill call) x else A x
  have hBdone : ∀ c x, InGrid ds.shape ds.chunkShape c → InStored ds c x → done c →
      B x = override A call.off call.shape (RegionCall.val ds.fill call) x := by
    intro c x hg hx hd
    show (if _ then _ else _) = _
    rw [hx.div h hg, if_pos hd]
  have hBelse : ∀ c x, InGrid ds.shape ds.chunkShape c → InStored ds c x → ¬ done c → B x = A x := by
    intro c x hg hx hd
    show (if _ then _ else _) = _
    rw [hx.div h hg, if_neg hd]
  obtain ⟨A', k1, k2⟩ := refinesOn_of_chunks h (σ := σ) (σ' := X.2) (S := B) (B := B) (A := A)
    (fun c => ¬ (∃ j : Nat, cs[j]? = some c ∧ j ∈ crash ∧ TaskRunning X.1 j))
    (fun c hg _ => Or.inr (hA c hg)) (fun _ _ _ _ _ => Or.inl rfl) (by
      intro c hg hgood
      by_cases ht : Touches ds call.off call.shape c
      · obtain ⟨j, hj, hjc⟩ := List.getElem_of_mem ((hmem c).2 ht)
        have hjc' : cs[j]? = some c := by rw [List.getElem?_eq_getElem hj, hjc]
        obtain ⟨p', g1, g2, g3, g4⟩ := h2 j c hjc'
        have huniq : ∀ i : Nat, cs[i]? = some c → i = j := by
          intro i hi
          obtain ⟨hi', he⟩ := List.getElem?_eq_some_iff.1 hi
          exact (List.getElem_inj hnd).1 (he.trans hjc.symm)
        have hcase : (∃ e, exec1 (ds.writeTask (RegionCall.request call) call.off call.shape c (scratch j))
              (σ (ds.chunkKey c)) = (.throw e, σ (ds.chunkKey c))) ∨
            ∃ v', exec1 (ds.writeTask (RegionCall.request call) call.off call.shape c (scratch j))
              (σ (ds.chunkKey c)) = (.ok (), v') ∧
              Written ds c v' (override A call.off call.shape (RegionCall.val ds.fill call)) :=
          writeTask_exec h hw hv.1 ht (RegionCall.spec hv) (scratch j) (hA c hg)
        cases hp : p' with
        | ret r =>
          have g5 := g4 r hp
          rcases hcase with ⟨e, he⟩ | ⟨v', he, hwr⟩
          · right
            rw [he] at g5
            simp only [Prod.mk.injEq] at g5
            refine ⟨g5.2.symm, fun x hx => hBelse c x hg hx ?_⟩
            rintro ⟨i, hi, hd⟩
            rw [huniq i hi, TaskDone, g1, hp] at hd
            simp only [Option.some.injEq, Prog.ret.injEq] at hd
            rw [← g5.1] at hd
            simp at hd
          · left
            rw [he] at g5
            simp only [Prod.mk.injEq] at g5
            rw [← g5.2]
            have hd : done c := ⟨j, hjc', by rw [TaskDone, g1, hp, ← g5.1]⟩
            cases v' with
            | none => exact fun x hx => by rw [hBdone c x hg hx hd]; exact hwr x hx
            | some b =>
              have : Written ds c (some b) _ := hwr
              exact this.congr fun x hx => (hBdone c x hg hx hd).symm
        | act k f co =>
          right
          have hrun : TaskRunning X.1 j := ⟨k, f, co, by rw [g1, hp]⟩
          have hns : j ∉ crash := fun hjc => hgood ⟨j, hjc', hjc, hrun⟩
          refine ⟨g3 hns, fun x hx => hBelse c x hg hx ?_⟩
          rintro ⟨i, hi, hd⟩
          rw [huniq i hi, TaskDone, g1, hp] at hd
          simp at hd
      · right
        refine ⟨h1 _ ?_, fun x hx => hBelse c x hg hx ?_⟩
        · intro d hd he
          exact ht (h.key_inj hd.inGrid hg he ▸ hd)
        · rintro ⟨j, hj, _⟩
          exact ht ((hmem c).1 (List.mem_of_getElem? hj)))
  refine ⟨A', k1, ?_, ?_⟩
  · intro j c x hj hd hx
    have ht := (hmem c).1 (List.mem_of_getElem? hj)
    have := k2 c x ht.inGrid (by
      rintro ⟨i, hi, _, hrun⟩
      obtain ⟨hi', he⟩ := List.getElem?_eq_some_iff.1 hi
      obtain ⟨hj', he'⟩ := List.getElem?_eq_some_iff.1 hj
      have hij : i = j := (List.getElem_inj hnd).1 (he.trans he'.symm)
      subst hij
      obtain ⟨k, f, co, hk⟩ := hrun
      rw [TaskDone, hk] at hd
      simp at hd) hx
    rw [hBdone c x ht.inGrid hx ⟨j, hj, hd⟩] at this
    exact this
  · intro c x hg hx hgood hnd'
    have := k2 c x hg hgood hx
    rw [hBelse c x hg hx fun ⟨j, hj, hd⟩ => hnd' j hj hd] at this
    exact this

theorem holdsOn_readsAsExcept (h : ds.WF) {σ : Store} {A : List Nat → E.T} {bad : List Nat → Prop}
    (hA : ∀ c, InGrid ds.shape ds.chunkShape c → ¬ bad c → BlobOk ds c (σ (ds.chunkKey c)) A) :
    ReadsAsExcept ds σ A bad := by
  intro off out outBuf scratch hr hfit hna hbad
  refine readSubarray_exec h hr hfit hna (fun c hc => hA c hc.inGrid fun hb => ?_) scratch
  obtain ⟨x, h1, h2⟩ := hc
  exact hbad c x hb h1 h2

/-- **C39, reading after a crash.** A region write on a well-formed store is interrupted at any point.  Then
every chunk whose task is not in progress can be read; its elements inside the region are the new ones if the
task has succeeded, all other elements are the old ones (up to elided fill values). -/
theorem c39_crash_readable (h : ds.WF) (hw : ds.canWrite = true) {ws : List (Write E.T)} {σ : Store}
    (hreach : Reaches ds ws σ) {call : RegionCall E} (hv : call.Valid ds) {scratch : Nat → List E.T}
    {ts : List (Prog Unit)} (hts : call.start ds scratch = .ok ts) (crash : List Nat) :
    ∃ cs : List (List Nat), cs.length = ts.length ∧
      (∀ c, c ∈ cs ↔ ∃ x, InRegion x call.off call.shape ∧ InChunk ds.shape ds.chunkShape c x) ∧
      ∃ A A', ReadsAs ds σ A ∧
        ReadsAsExcept ds (interleave crash (ts, σ)).2 A' (fun c =>
          ∃ j, cs[j]? = some c ∧ j ∈ crash ∧ TaskRunning (interleave crash (ts, σ)).1 j) ∧
        (∀ (j : Nat) c x, cs[j]? = some c → TaskDone (interleave crash (ts, σ)).1 j (.ok ()) →
          InChunk ds.shape ds.chunkShape c x → InRegion x call.off call.shape →
          ∃ v, call.value (subV x call.off) = some v ∧ SameOrFill E.ceq ds.fill (A' x) v) ∧
        (∀ c x, InChunk ds.shape ds.chunkShape c x →
          ¬ (∃ j, cs[j]? = some c ∧ j ∈ crash ∧ TaskRunning (interleave crash (ts, σ)).1 j) →
          (InRegion x call.off call.shape →
            ∀ j, cs[j]? = some c → ¬ TaskDone (interleave crash (ts, σ)).1 j (.ok ())) →
          SameOrFill E.ceq ds.fill (A' x) (A x)) := by
  obtain ⟨A, hA, _⟩ := reaches_refines h hw hreach
  obtain ⟨cs, h0, h1, A', h2, h3, h4⟩ := crash_refines h hw hA hv scratch crash hts
  refine ⟨cs, h0, h1, A, A', holds_readsAs h hA, holdsOn_readsAsExcept h h2, ?_, ?_⟩
  · intro j c x hj hd hx hreg
    have := h3 j c x hj hd (.of_inChunk hx)
    rw [override_in hreg] at this
    exact ⟨_, RegionCall.value_some hv (region_sub hreg).2, this⟩
  · intro c x hx hgood hno
    by_cases hd : ∀ j, cs[j]? = some c → ¬ TaskDone (interleave crash (ts, σ)).1 j (.ok ())
    · exact h4 c x (inGrid_of_inChunk hx) (.of_inChunk hx) hgood hd
    · rw [Classical.not_forall] at hd
      obtain ⟨j, hd⟩ := hd
      rw [Classical.not_imp, Classical.not_not] at hd
      have hnr : ¬ InRegion x call.off call.shape := fun hreg => hno hreg j hd.1 hd.2
      have := h3 j c x hd.1 hd.2 (.of_inChunk hx)
      unfold override at this
      rw [if_neg hnr] at this
      exact this

/-- Chunks rewritten one after the other with `writeChunk`. -/
inductive Rewrites (ds : Dataset E) : List (List Nat × List E.T) → Store → Store → Prop
  | nil {σ} : Rewrites ds [] σ σ
  | cons {c data l σ σ1 σ2} : InGrid ds.shape ds.chunkShape c → data.length = prod (ds.stored c) →
      run (ds.writeChunk c data) σ = (.ok (), σ1) → Rewrites ds l σ1 σ2 →
      Rewrites ds ((c, data) :: l) σ σ2

theorem rewrites_heal (h : ds.WF) (hw : ds.canWrite = true) {l : List (List Nat × List E.T)}
    {σ σ2 : Store} (hl : Rewrites ds l σ σ2) : ∀ {A : List Nat → E.T} {bad : List Nat → Prop},
    (∀ c, InGrid ds.shape ds.chunkShape c → ¬ bad c → BlobOk ds c (σ (ds.chunkKey c)) A) →
    ∃ A2, (∀ c, InGrid ds.shape ds.chunkShape c → (bad c → c ∈ l.map Prod.fst) →
        BlobOk ds c (σ2 (ds.chunkKey c)) A2) ∧
      ∀ c x, InGrid ds.shape ds.chunkShape c → ¬ bad c → c ∉ l.map Prod.fst → InStored ds c x →
        SameOrFill E.ceq ds.fill (A2 x) (A x) := by
  induction hl with
  | nil =>
    intro A bad hA
    exact ⟨A, fun c hg hb => hA c hg fun h' => by simpa using hb h', fun _ _ _ _ _ _ => Or.inl rfl⟩
  | @cons c data l σ σ1 σ2 hg hlen hrun _ ih =>
    intro A bad hA
    let val : List Nat → E.T := fun i => (data[ravel (ds.stored c) i]?).getD ds.fill
    have hr : Repr ds c (some data) (override A (mulV c ds.chunkShape) (ds.stored c) val) := by
      refine ⟨hlen, fun x hx => ?_⟩
      rw [override_in hx]
      have := ravel_lt (region_sub hx).2
      show _ = some ((data[_]?).getD _)
      rw [List.getElem?_eq_getElem (by omega)]
      rfl
    have hrun' := run_of_touches (touches_writeChunk ds c data false 0) σ
    rw [hrun] at hrun'
    have hwr : Written ds c (σ1 (ds.chunkKey c))
        (override A (mulV c ds.chunkShape) (ds.stored c) val) := by
      rcases writeChunk_written h hw hg hr (σ (ds.chunkKey c)) with ⟨e, he⟩ | ⟨v', he, hwr⟩
      · rw [he] at hrun'; simp at hrun'
      · rw [he] at hrun'
        simp only [Prod.mk.injEq, true_and] at hrun'
        rw [hrun', upd_same]
        exact hwr
    simp only [Prod.mk.injEq] at hrun'
    have hother : ∀ d, InGrid ds.shape ds.chunkShape d → d ≠ c →
        σ1 (ds.chunkKey d) = σ (ds.chunkKey d) ∧
        ∀ x, InStored ds d x → override A (mulV c ds.chunkShape) (ds.stored c) val x = A x := by
      intro d hd he
      refine ⟨?_, ?_⟩
      · rw [hrun'.2, upd_other]
        exact fun hk => he (h.key_inj hd hg hk)
      · intro x hx
        unfold override
        rw [if_neg]
        intro hx'
        have hx'' : InStored ds c x := hx'
        exact he ((hx.div h hd).symm.trans (hx''.div h hg))
    obtain ⟨A1, k1, k2⟩ := refinesOn_of_chunks h (σ := σ) (σ' := σ1) (A := A)
      (S := override A (mulV c ds.chunkShape) (ds.stored c) val)
      (B := override A (mulV c ds.chunkShape) (ds.stored c) val)
      (fun d => bad d → d = c) (by
        intro d hd hgood
        by_cases he : d = c
        · subst he; exact Or.inl hwr
        · exact Or.inr (hA d hd fun hb => he (hgood hb)))
      (fun _ _ _ _ _ => Or.inl rfl) (by
        intro d hd hgood
        by_cases he : d = c
        · subst he; exact Or.inl hwr
        · exact Or.inr (hother d hd he))
    obtain ⟨A2, m1, m2⟩ := ih (A := A1) (bad := fun d => bad d ∧ d ≠ c) (by
      intro d hd hb
      refine k1 d hd fun hbd => ?_
      apply Classical.byContradiction
      intro he
      exact hb ⟨hbd, he⟩)
    refine ⟨A2, ?_, ?_⟩
    · intro d hd hb
      refine m1 d hd ?_
      rintro ⟨hbd, he⟩
      have := hb hbd
      rw [List.map_cons, List.mem_cons] at this
      exact this.resolve_left he
    · intro d x hd hnb hnl hx
      rw [List.map_cons, List.mem_cons, not_or] at hnl
      have s1 := m2 d x hd (fun hb => hnb hb.1) hnl.2 hx
      have s2 := k2 d x hd (fun hb => absurd hb hnb) hx
      rw [(hother d hd hnl.1).2 x hx] at s2
      exact s1.trans s2

/-- **C39, repair.** After an interrupted region write, rewriting with `writeChunk` the chunks that were in
progress (and possibly others) makes the whole dataset readable again; the chunks that were not rewritten
read as right after the crash. -/
theorem c39_rewrite_repairs (h : ds.WF) (hw : ds.canWrite = true) {ws : List (Write E.T)} {σ : Store}
    (hreach : Reaches ds ws σ) {call : RegionCall E} (hv : call.Valid ds) {scratch : Nat → List E.T}
    {ts : List (Prog Unit)} (hts : call.start ds scratch = .ok ts) (crash : List Nat) :
    ∃ cs : List (List Nat), cs.length = ts.length ∧
      (∀ c, c ∈ cs ↔ ∃ x, InRegion x call.off call.shape ∧ InChunk ds.shape ds.chunkShape c x) ∧
      ∀ (l : List (List Nat × List E.T)) (σ2 : Store), Rewrites ds l (interleave crash (ts, σ)).2 σ2 →
        (∀ j c, cs[j]? = some c → j ∈ crash → TaskRunning (interleave crash (ts, σ)).1 j →
          c ∈ l.map Prod.fst) →
        ∃ A' A2, ReadsAsExcept ds (interleave crash (ts, σ)).2 A' (fun c =>
            ∃ j, cs[j]? = some c ∧ j ∈ crash ∧ TaskRunning (interleave crash (ts, σ)).1 j) ∧
          ReadsAs ds σ2 A2 ∧
          ∀ c x, InChunk ds.shape ds.chunkShape c x → c ∉ l.map Prod.fst →
            SameOrFill E.ceq ds.fill (A2 x) (A' x) := by
  obtain ⟨A, hA, _⟩ := reaches_refines h hw hreach
  obtain ⟨cs, h0, h1, A', h2, _, _⟩ := crash_refines h hw hA hv scratch crash hts
  refine ⟨cs, h0, h1, ?_⟩
  intro l σ2 hl hcov
  obtain ⟨A2, k1, k2⟩ := rewrites_heal h hw hl h2
  refine ⟨A', A2, holdsOn_readsAsExcept h h2, holds_readsAs h fun c hg => k1 c hg ?_, ?_⟩
  · rintro ⟨j, hj, hjc, hrun⟩
    exact hcov j c hj hjc hrun
  · intro c x hx hnl
    refine k2 c x (inGrid_of_inChunk hx) ?_ hnl (.of_inChunk hx)
    rintro ⟨j, hj, hjc, hrun⟩
    exact hnl (hcov j c hj hjc hrun)

/-- A crash in the middle of a write: the second of two tasks has truncated its file and written one byte
of eight. -/
example : ∃ ts, (RegionCall.scalar (E := U16) [0, 0] [2, 3] (4 : Fin (256 ^ 2))).start (exDataset true)
      (fun _ => []) = .ok ts ∧
    (interleave [1, 1, 1] (ts, fun _ => none)).2 ((exDataset true).chunkKey [0, 1]) = some [4] ∧
    (interleave [1, 1, 1] (ts, fun _ => none)).2 ((exDataset true).chunkKey [0, 0]) = none :=
  ⟨_, rfl, by decide +kernel, by decide +kernel⟩

end Z5.Props
