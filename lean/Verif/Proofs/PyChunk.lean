import Verif.Spec.PyChunk
import Verif.Props.Varlen
import Verif.Props.Functions
import Verif.Props.ChunkApi

/-!
# Lemmas for the chunk functions of Python
-/

namespace Z5.Props
open Z5 Spec Prog

variable {E : Elem} {ds : Dataset E}

/-- A store action never throws. -/
theorem run_write_not_throw {s : Backend} {k : Key} {b : Bytes} {σ σ' : Store} {e : Err} :
    run (storeWrite s k b) σ ≠ (.throw e, σ') := by
  rw [run_of_touches (touches_write s k b), exec1_write]
  exact fun h => by cases h

theorem run_erase_not_throw {s : Backend} {k : Key} {σ σ' : Store} {e : Err} :
    run (storeErase s k) σ ≠ (.throw e, σ') := by
  rw [run_of_touches (touches_erase s k), exec1_erase]
  exact fun h => by cases h

theorem writeChunk_throw {c : List Nat} {data : List E.T} {vl : Bool} {n : Nat} {σ σ' : Store} {e : Err}
    (h : run (ds.writeChunk c data vl n) σ = (.throw e, σ')) : σ' = σ := by
  unfold Dataset.writeChunk at h
  split at h
  · cases h; rfl
  · cases hh : ds.handle c with
    | throw e' => rw [hh] at h; cases h; rfl
    | ub => rw [hh] at h; cases h
    | ok s =>
      rw [hh, bind_ok] at h
      cases hk : ds.checkChunk c vl with
      | throw e' => rw [hk] at h; cases h; rfl
      | ub => rw [hk] at h; cases h
      | ok _ =>
        rw [hk, bind_ok] at h
        cases hb : dataToBuffer E ds.codec s data ds.fill vl n with
        | throw e' => rw [hb] at h; cases h; rfl
        | ub => rw [hb] at h; cases h
        | ok o =>
          rw [hb, bind_ok] at h
          cases o with
          | none => exact absurd h run_erase_not_throw
          | some b => exact absurd h run_write_not_throw

theorem writeChunk_inGrid (h : ds.WF) (hw : ds.canWrite = true) {c : List Nat} {data : List E.T} {vl : Bool} {n : Nat}
    {σ σ' : Store} (hrun : run (ds.writeChunk c data vl n) σ = (.ok (), σ')) : InGrid ds.shape ds.chunkShape c := by
  by_cases hc : ds.chunking.checkBlockCoordinate c = true
  · exact (h.checkBlock c).1 hc
  · exfalso
    rw [Dataset.writeChunk, hw, if_neg (by decide)] at hrun
    cases hh : ds.handle c with
    | ok b =>
      rw [hh, bind_ok, Dataset.checkChunk, if_pos (by simpa using hc)] at hrun
      simp [run] at hrun
    | throw e => rw [hh] at hrun; simp [run] at hrun
    | ub => rw [hh] at hrun; simp [run] at hrun

theorem getChunkSize_eq (h : ds.WF) (hz : ds.isZarr = false) {c : List Nat} (hc : InGrid ds.shape ds.chunkShape c) :
    ds.getChunkSize c = .ok (prod (ds.stored c)) := by
  unfold Dataset.getChunkSize
  rw [h.handle_eq hc]
  show Res.ok (accumulateMul (extV ds.shape ds.chunkShape c)) = _
  rw [accumulateMul_eq (prod_reverse_ext_lt h hc), Dataset.stored, if_neg (by simp [hz])]

/-- Without `varlen`, the number of elements is checked, then the chunk is written. -/
theorem pyWrite_regular (h : ds.WF) {c : List Nat} (hc : InGrid ds.shape ds.chunkShape c) (a : NpArray E.T) :
    ds.pyWriteChunk c (.array a) false =
      if a.data.length ≠ prod (ds.stored c) then Prog.throw .runtimeError else ds.writeChunk c a.data := by
  unfold Dataset.pyWriteChunk
  rw [if_neg (by simp)]
  dsimp only
  rw [if_pos (by rfl)]
  by_cases hz : ds.isZarr = true
  · rw [if_pos hz]
    show (if a.data.length ≠ ds.chunkSize then _ else _) = _
    rw [h.chunkSize_eq, Dataset.stored, if_pos hz]
  · rw [if_neg hz, getChunkSize_eq h (by simpa using hz) hc]
    rfl

theorem pyWrite_ok_inGrid (h : ds.WF) (hw : ds.canWrite = true) {c : List Nat} {a : ChunkArg E.T} {vl : Bool}
    {σ σ' : Store} (hrun : run (ds.pyWriteChunk c a vl) σ = (.ok (), σ')) : InGrid ds.shape ds.chunkShape c := by
  unfold Dataset.pyWriteChunk at hrun
  split at hrun
  · cases hrun
  · cases a with
    | notAccepted => cases hrun
    | otherType => cases hrun
    | array a =>
      dsimp only at hrun
      split at hrun
      · split at hrun
        · change run (if a.data.length ≠ ds.chunkSize then Prog.throw .runtimeError else ds.writeChunk c a.data false 0) _ = _ at hrun
          split at hrun
          · cases hrun
          · exact writeChunk_inGrid h hw hrun
        · cases hs : ds.getChunkSize c with
          | throw e => rw [hs] at hrun; cases hrun
          | ub => rw [hs] at hrun; cases hrun
          | ok n =>
            rw [hs, bind_ok] at hrun
            split at hrun
            · cases hrun
            · exact writeChunk_inGrid h hw hrun
      · exact writeChunk_inGrid h hw hrun

theorem pyWrite_throw {c : List Nat} {a : ChunkArg E.T} {vl : Bool} {σ σ' : Store} {e : Err}
    (hrun : run (ds.pyWriteChunk c a vl) σ = (.throw e, σ')) : σ' = σ := by
  unfold Dataset.pyWriteChunk at hrun
  split at hrun
  · cases hrun; rfl
  · cases a with
    | notAccepted => cases hrun; rfl
    | otherType => cases hrun; rfl
    | array a =>
      dsimp only at hrun
      split at hrun
      · split at hrun
        · change run (if a.data.length ≠ ds.chunkSize then Prog.throw .runtimeError else ds.writeChunk c a.data false 0) _ = _ at hrun
          split at hrun
          · cases hrun; rfl
          · exact writeChunk_throw hrun
        · cases hs : ds.getChunkSize c with
          | throw e => rw [hs] at hrun; cases hrun; rfl
          | ub => rw [hs] at hrun; cases hrun
          | ok n =>
            rw [hs, bind_ok] at hrun
            split at hrun
            · cases hrun; rfl
            · exact writeChunk_throw hrun
      · exact writeChunk_throw hrun

/-- the bytes `v` of chunk `c` stand for the content -/
def StandsFor (ds : Dataset E) (c : List Nat) (v : Option Bytes) : ChunkContent E.T → Prop
  | .missing => v = none
  | .regular data => ∃ b, v = some b ∧ Decodes ds c b data
  | .varlen data => ds.isZarr = false ∧ data.length < 2 ^ 64 ∧ ∃ b, v = some b ∧ DecodesVarlen ds b data

theorem calls_stand (h : ds.WF) (hw : ds.canWrite = true) {f : List Nat → ChunkContent E.T} {σ : Store}
    (hcalls : ChunkCalls ds f σ) : ∀ c, InGrid ds.shape ds.chunkShape c → StandsFor ds c (σ (ds.chunkKey c)) (f c) := by
  induction hcalls with
  | empty h0 => exact fun c hc => h0 c hc
  | @write f σ σ' c a _ hrun ih =>
    have hg := pyWrite_ok_inGrid h hw hrun
    rw [pyWrite_regular h hg] at hrun
    split at hrun
    · cases hrun
    · rename_i hlen
      have hlen : a.data.length = prod (ds.stored c) := by omega
      have hrun' := run_of_touches (touches_writeChunk ds c a.data false 0) σ
      rw [hrun] at hrun'
      intro d hd
      unfold setContent
      by_cases he : d = c
      · subst he
        rw [if_pos rfl]
        rcases writeChunk_exec h hw hg a.data hlen (σ (ds.chunkKey d)) with ⟨e1, e2⟩ | ⟨⟨v, hv, e2⟩, ⟨e, e1⟩ | ⟨b, e1, _, hdec⟩⟩
        · rw [e1] at hrun'
          have hσ : σ' = _ := (Prod.mk.inj hrun').2
          rw [hσ, upd_same, ChunkContent.ofRegular, if_pos (List.all_eq_true.2 e2)]
          rfl
        · rw [e1] at hrun'; cases hrun'
        · rw [e1] at hrun'
          have hσ : σ' = _ := (Prod.mk.inj hrun').2
          rw [hσ, upd_same, ChunkContent.ofRegular, if_neg]
          · exact ⟨b, rfl, hdec⟩
          · intro hall
            rw [List.all_eq_true.1 hall v hv] at e2
            cases e2
      · rw [if_neg he]
        have hσ : σ' = _ := (Prod.mk.inj hrun').2
        rw [hσ, upd_other _ _ fun hk => he (h.key_inj hd hg hk)]
        exact ih d hd
  | @writeVarlen f σ σ' c a _ hn hb hlaw hrun ih =>
    have hg := pyWrite_ok_inGrid h hw hrun
    have hz : ds.isZarr = false := by
      cases hz : ds.isZarr with
      | false => rfl
      | true =>
        unfold Dataset.pyWriteChunk at hrun
        rw [hz] at hrun
        cases hrun
    have hrun : run (ds.writeChunk c a.data true a.data.length) σ = (.ok (), σ') := by
      unfold Dataset.pyWriteChunk at hrun
      rw [hz] at hrun
      exact hrun
    have hrun' := run_of_touches (touches_writeChunk ds c a.data true a.data.length) σ
    rw [hrun] at hrun'
    intro d hd
    unfold setContent
    by_cases he : d = c
    · subst he
      rw [if_pos rfl]
      by_cases h0 : a.data = []
      · obtain ⟨σ2, e1, e2, _⟩ := c41_zero_removes h hw hz hg a.data σ
        rw [h0] at hrun
        rw [h0] at e1
        rw [show run (ds.writeChunk d [] true ([] : List E.T).length) σ = run (ds.writeChunk d [] true 0) σ from rfl, e1] at hrun
        cases hrun
        rw [e2, h0]
        rfl
      · rcases writeChunk_varlen h hw hz hg a.data (List.length_pos_iff.2 h0) hn hb hlaw (σ (ds.chunkKey d)) with ⟨e, e1⟩ | ⟨b, e1, hdec⟩
        · rw [e1] at hrun'; cases hrun'
        · rw [e1] at hrun'
          have hσ : σ' = _ := (Prod.mk.inj hrun').2
          rw [hσ, upd_same, ChunkContent.ofVarlen, if_neg (by simpa using h0)]
          exact ⟨hz, by omega, b, rfl, hdec⟩
    · rw [if_neg he]
      have hσ : σ' = _ := (Prod.mk.inj hrun').2
      rw [hσ, upd_other _ _ fun hk => he (h.key_inj hd hg hk)]
      exact ih d hd
  | @remove f σ σ' c _ hg hrun ih =>
    have hrun' := run_of_touches (touches_removeChunk ds c) σ
    rw [hrun, exec_removeChunk h hw hg] at hrun'
    have hσ : σ' = _ := (Prod.mk.inj hrun').2
    intro d hd
    unfold setContent
    by_cases he : d = c
    · subst he
      rw [if_pos rfl, hσ, upd_same]
      rfl
    · rw [if_neg he, hσ, upd_other _ _ fun hk => he (h.key_inj hd hg hk)]
      exact ih d hd
  | @failed f σ σ' c a vl e _ hrun ih =>
    rw [pyWrite_throw hrun]
    exact ih

theorem touches_pyReadChunk (ds : Dataset E) (c : List Nat) (fresh : Nat → List E.T) :
    TouchesOnly (ds.chunkKey c) (ds.pyReadChunk c fresh) := by
  unfold Dataset.pyReadChunk
  refine TouchesOnly.bind (touches_chunkExists ds c) fun b => ?_
  split
  · exact TouchesOnly.ret _
  · refine TouchesOnly.bind (touches_checkVarlenChunk ds c) fun v => ?_
    dsimp only
    split
    · exact TouchesOnly.bind (TouchesOnly.ret _) fun s => TouchesOnly.bind (touches_readChunk ds c _) fun o => TouchesOnly.ret _
    · split
      · exact TouchesOnly.bind (TouchesOnly.ret _) fun s => TouchesOnly.bind (touches_readChunk ds c _) fun o => TouchesOnly.ret _
      · exact TouchesOnly.bind (TouchesOnly.ret _) fun s => TouchesOnly.bind (touches_readChunk ds c _) fun o => TouchesOnly.ret _

theorem stored_prod_lt (h : ds.WF) {c : List Nat} (hc : InGrid ds.shape ds.chunkShape c) :
    accumulateMul (ds.stored c) = prod (ds.stored c) := by
  unfold Dataset.stored
  split
  · rw [← h.chunkSize_eq]
    have := h.made
    unfold Dataset.make at this
    cases hB : Blocking.make ds.shape ds.chunkShape with
    | throw e => rw [hB] at this; cases this
    | ub => rw [hB] at this; cases this
    | ok B =>
      rw [hB] at this
      exact congrArg Dataset.chunkSize (Res.ok.inj this)
  · exact accumulateMul_eq (prod_reverse_ext_lt h hc)

theorem exec_checkVarlen_regular (h : ds.WF) {c : List Nat} (hc : InGrid ds.shape ds.chunkShape c) {b : Bytes}
    {data : List E.T} (hd : Decodes ds c b data) :
    ∃ n, exec1 (ds.checkVarlenChunk c) (some b) = (.ok (false, n), some b) := by
  unfold Dataset.checkVarlenChunk
  rw [h.handle_eq hc, bind_ok]
  split
  · exact ⟨_, rfl⟩
  · rename_i hz
    rw [exec1_bind_ok (exec1_exists _ _)]
    simp only [Option.isSome_some, Bool.not_true, Bool.false_eq_true, if_false]
    rw [exec1_bind_ok (exec1_peek _ _)]
    dsimp only
    rw [hd.mode (by simpa using fun h' => hz (.inr h'))]
    exact ⟨_, rfl⟩

/-- `read_chunk` of a chunk that is stored in regular form -/
theorem exec_pyRead_regular (h : ds.WF) {c : List Nat} (hc : InGrid ds.shape ds.chunkShape c) {b : Bytes}
    {data : List E.T} (hd : Decodes ds c b data) {fresh : Nat → List E.T} (hf : ∀ n, (fresh n).length = n) :
    exec1 (ds.pyReadChunk c fresh) (some b) = (.ok (some ⟨ds.stored c, data⟩), some b) := by
  obtain ⟨n, hv⟩ := exec_checkVarlen_regular h hc hd
  unfold Dataset.pyReadChunk
  rw [exec1_bind_ok (chunkExists_exec h hc _)]
  simp only [Option.isSome_some, Bool.not_true, Bool.false_eq_true, if_false]
  rw [exec1_bind_ok hv]
  dsimp only
  rw [if_neg (by simp)]
  have hrest : ∀ sh, sh = ds.stored c → exec1 (ds.readChunk c (fresh (accumulateMul sh)) >>= fun x => pure (some (⟨sh, x.2⟩ : NpArray E.T)))
      (some b) = (.ok (some ⟨ds.stored c, data⟩), some b) := by
    intro sh hsh
    subst hsh
    rw [exec1_bind_ok (readChunk_exec h hc hd _ (by rw [hf, stored_prod_lt h hc]))]
    rfl
  split
  · rename_i hz
    exact hrest ds.chunkShape (by rw [Dataset.stored, if_pos hz])
  · rename_i hz
    unfold Dataset.getChunkShape
    rw [h.handle_eq hc]
    exact hrest _ (by rw [Dataset.stored, if_neg hz])

theorem exec_pyRead_varlen (h : ds.WF) (hfiles : ds.backend = .files) (hz : ds.isZarr = false) {c : List Nat}
    (hc : InGrid ds.shape ds.chunkShape c) {b : Bytes} {data : List E.T} (hd : DecodesVarlen ds b data)
    (hlen : data.length < 2 ^ 64) {fresh : Nat → List E.T} (hf : ∀ n, (fresh n).length = n) :
    exec1 (ds.pyReadChunk c fresh) (some b) = (.ok (some ⟨[data.length], data⟩), some b) := by
  have hv : exec1 (ds.checkVarlenChunk c) (some b) = (.ok (true, data.length), some b) := by
    unfold Dataset.checkVarlenChunk
    rw [h.handle_eq hc, bind_ok, if_neg (by simp [hz, hfiles]), exec1_bind_ok (exec1_exists _ _)]
    simp only [Option.isSome_some, Bool.not_true, Bool.false_eq_true, if_false]
    rw [exec1_bind_ok (exec1_peek _ _)]
    dsimp only
    rw [hd.mode]
    rfl
  unfold Dataset.pyReadChunk
  rw [exec1_bind_ok (chunkExists_exec h hc _)]
  simp only [Option.isSome_some, Bool.not_true, Bool.false_eq_true, if_false]
  rw [exec1_bind_ok hv]
  dsimp only
  rw [if_pos rfl]
  show exec1 (ds.readChunk c (fresh (accumulateMul [data.length])) >>= fun x => pure (some (⟨[data.length], x.2⟩ : NpArray E.T)))
    (some b) = _
  have ha : accumulateMul [data.length] = data.length := by
    show wmul 1 data.length = _
    unfold wmul
    rw [Nat.one_mul, Nat.mod_eq_of_lt hlen]
  have := readChunk_varlen h hz hc hd (fresh data.length) [] (hf _)
  rw [List.append_nil, List.append_nil] at this
  rw [ha, exec1_bind_ok this]
  rfl

theorem exec_pyRead_missing (h : ds.WF) {c : List Nat} (hc : InGrid ds.shape ds.chunkShape c) (fresh : Nat → List E.T) :
    exec1 (ds.pyReadChunk c fresh) none = (.ok none, none) := by
  unfold Dataset.pyReadChunk
  rw [exec1_bind_ok (chunkExists_exec h hc _)]
  rfl

end Z5.Props
