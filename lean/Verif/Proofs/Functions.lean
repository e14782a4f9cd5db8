import Verif.Spec.Functions
import Verif.Proofs.Region
import Verif.Proofs.ShardChunk
import Verif.Proofs.Foreach

/-!
# `std::set`, `std::map` and the loops of `util/functions.hxx`
-/

namespace Z5
open Spec Prog

variable {E : Elem} {lt : E.T → E.T → Bool} {P : E.T → Prop}

namespace OrderedOn

theorem irrefl (h : OrderedOn E lt P) {a : E.T} (ha : P a) : lt a a = false := ((h.same a a ha ha).1 (h.refl a ha)).1

theorem symm (h : OrderedOn E lt P) {a b : E.T} (ha : P a) (hb : P b) (e : E.ceq a b = true) :
    E.ceq b a = true := (h.same b a hb ha).2 ((h.same a b ha hb).1 e).symm

theorem weakOrder (h : OrderedOn E lt P) {l : List E.T} (hl : ∀ a ∈ l, P a) : weakOrder lt l = true := by
  unfold Z5.weakOrder
  rw [List.all_eq_true]
  intro a ha
  rw [Bool.and_eq_true, List.all_eq_true]
  refine ⟨by rw [h.irrefl (hl a ha)]; rfl, fun b hb => ?_⟩
  rw [List.all_eq_true]
  intro c hc
  have h1 := h.trans a b c (hl a ha) (hl b hb) (hl c hc)
  have h2 := h.ceqTrans a b c (hl a ha) (hl b hb) (hl c hc)
  rw [h.same a b (hl a ha) (hl b hb), h.same b c (hl b hb) (hl c hc), h.same a c (hl a ha) (hl c hc)] at h2
  revert h1 h2
  cases lt a b <;> cases lt b a <;> cases lt b c <;> cases lt c b <;> cases lt a c <;> cases lt c a <;> simp

end OrderedOn

/-! ### one value -/

theorem length_setInsert_le (x : E.T) : ∀ s : List E.T, s.length ≤ (setInsert lt x s).length
  | [] => by simp [setInsert]
  | y :: s => by
    rw [setInsert]
    split
    · simp
    · split
      · have := length_setInsert_le x s; simp; omega
      · simp

theorem length_foldl_setInsert (l : List E.T) : ∀ s : List E.T,
    s.length ≤ (l.foldl (fun s x => setInsert lt x s) s).length := by
  induction l with
  | nil => intro s; exact Nat.le_refl _
  | cons x l ih =>
    intro s
    exact Nat.le_trans (length_setInsert_le x s) (ih _)

theorem foldl_setInsert_one (h : OrderedOn E lt P) {u : E.T} (hu : P u) : ∀ (l : List E.T), (∀ a ∈ l, P a) →
    ((∀ a ∈ l, E.ceq u a = true) → l.foldl (fun s x => setInsert lt x s) [u] = [u]) ∧
    ((∃ a ∈ l, E.ceq u a = false) → 2 ≤ (l.foldl (fun s x => setInsert lt x s) [u]).length)
  | [], _ => ⟨fun _ => rfl, fun ⟨a, ha, _⟩ => by simp at ha⟩
  | x :: l, hl => by
    have hx := hl x (by simp)
    have ih := foldl_setInsert_one h hu l fun a ha => hl a (by simp [ha])
    rw [List.foldl_cons]
    have hs := h.same u x hu hx
    by_cases he : E.ceq u x = true
    · obtain ⟨h1, h2⟩ := hs.1 he
      have : setInsert lt x [u] = [u] := by simp [setInsert, h1, h2]
      rw [this]
      refine ⟨fun ha => ih.1 fun a hm => ha a (by simp [hm]), fun ⟨a, hm, ha⟩ => ih.2 ?_⟩
      rcases List.mem_cons.1 hm with rfl | hm
      · rw [he] at ha; cases ha
      · exact ⟨a, hm, ha⟩
    · refine ⟨fun ha => absurd (ha x (by simp)) he, fun _ => ?_⟩
      refine Nat.le_trans ?_ (length_foldl_setInsert l _)
      rw [hs] at he
      simp only [setInsert]
      cases h1 : lt x u
      · cases h2 : lt u x
        · exact absurd ⟨h2, h1⟩ he
        · simp
      · simp

theorem trivialElements_spec (h : OrderedOn E lt P) {value : Option E.T} (hv : ∀ v, value = some v → P v)
    {data : List E.T} (hl : ∀ a ∈ data, P a) :
    ∃ b, trivialElements lt value data = .ok b ∧ (b = true ↔ OneValue E value data) := by
  unfold trivialElements setInsertAll
  rw [if_pos (by simpa using h.weakOrder hl)]
  match data with
  | [] => exact ⟨false, rfl, by simp [OneValue]⟩
  | u :: l =>
    have hu := hl u (by simp)
    have hl' : ∀ a ∈ l, P a := fun a ha => hl a (by simp [ha])
    obtain ⟨h1, h2⟩ := foldl_setInsert_one h hu l hl'
    have h0 : (u :: l).foldl (fun s x => setInsert lt x s) [] = l.foldl (fun s x => setInsert lt x s) [u] := rfl
    rw [h0, Res.ok_bind]
    by_cases hall : ∀ a ∈ l, E.ceq u a = true
    · rw [h1 hall]
      have hu1 : ∀ a ∈ u :: l, E.ceq u a = true := by
        intro a ha
        rcases List.mem_cons.1 ha with rfl | ha
        · exact h.refl _ hu
        · exact hall a ha
      have hsame : ∀ a ∈ u :: l, ∀ b ∈ u :: l, E.ceq a b = true := fun a ha b hb =>
        h.ceqTrans a u b (hl a ha) hu (hl b hb) (h.symm hu (hl a ha) (hu1 a ha)) (hu1 b hb)
      refine ⟨_, rfl, ?_⟩
      cases value with
      | none => simp only [true_iff]; exact ⟨by simp, hsame, fun v hv => by cases hv⟩
      | some v =>
        constructor
        · intro hc
          refine ⟨by simp, hsame, fun w hw a ha => ?_⟩
          cases hw
          exact h.ceqTrans a u v (hl a ha) hu (hv v rfl) (hsame a ha u (by simp)) hc
        · intro hc
          exact hc.2.2 v rfl u (by simp)
    · have hex : ∃ a ∈ l, E.ceq u a = false := by
        simp only [Classical.not_forall] at hall
        obtain ⟨a, ha, hn⟩ := hall
        exact ⟨a, ha, by simpa using hn⟩
      have hlen := h2 hex
      generalize l.foldl (fun s x => setInsert lt x s) [u] = s at hlen
      refine ⟨false, ?_, ?_⟩
      · match s, hlen with
        | _ :: _ :: _, _ => rfl
      · simp only [Bool.false_eq_true, false_iff]
        intro hc
        obtain ⟨a, ha, hn⟩ := hex
        have := hc.2.1 u (by simp) a (by simp [ha])
        rw [hn] at this; cases this

/-! ### reading a chunk -/

theorem run_bind_ok {α β : Type} {p : Prog α} {g : α → Prog β} {σ σ' : Store} {a : α}
    (h : run p σ = (.ok a, σ')) : run (p >>= g) σ = run (g a) σ' := by
  induction p generalizing σ with
  | ret r => simp only [run, Prod.mk.injEq] at h; obtain ⟨rfl, rfl⟩ := h; rfl
  | act k f c ih => exact ih (σ k) h

theorem revPrefix_append {n : Nat} {l out : List E.T} (extra : List E.T) (h : revPrefix E n l = .ok out) :
    revPrefix E n (l ++ extra) = .ok (out ++ extra) := by
  unfold revPrefix at h ⊢
  split at h
  · cases h
  · rename_i hn
    cases h
    rw [if_neg (by simp; omega), List.take_append_of_le_length (by omega), List.drop_append_of_le_length (by omega),
      List.append_assoc]

theorem bufferToData_rest {C : Codec} {z : Bool} {b : Bytes} {dest out : List E.T} {v : Bool} (extra : List E.T)
    (t1 : Bool) (t2 t3 : Nat)
    (h : (do
      let out ← decompress E C (b.drop t3) dest t2
      if !z && decide (E.size > 1) then do
        let out ← revPrefix E t2 out
        return (t1, out)
      else return (t1, out)) = Res.ok (v, out)) :
    (do
      let out ← decompress E C (b.drop t3) (dest ++ extra) t2
      if !z && decide (E.size > 1) then do
        let out ← revPrefix E t2 out
        return (t1, out)
      else return (t1, out)) = Res.ok (v, out ++ extra) := by
  cases hdec : decompress E C (b.drop t3) dest t2 with
  | throw e => rw [hdec] at h; cases h
  | ub => rw [hdec] at h; cases h
  | ok o =>
    rw [hdec, Res.ok_bind] at h
    rw [decompress_append extra hdec, Res.ok_bind]
    by_cases hc : (!z && decide (E.size > 1)) = true
    · rw [if_pos hc] at h ⊢
      cases hr : revPrefix E t2 o with
      | throw e => rw [hr] at h; cases h
      | ub => rw [hr] at h; cases h
      | ok o' =>
        rw [hr] at h
        rw [revPrefix_append extra hr]
        cases h; rfl
    · rw [if_neg hc] at h ⊢
      cases h; rfl

theorem bufferToData_append {C : Codec} {s : ChunkShapes} {b : Bytes} {dest out : List E.T} {v : Bool}
    (extra : List E.T) (h : bufferToData E C s b dest = .ok (v, out)) :
    bufferToData E C s b (dest ++ extra) = .ok (v, out ++ extra) := by
  unfold bufferToData at h ⊢
  by_cases hz : s.isZarr = true
  · simp only [if_pos hz, Res.ok_bind] at h ⊢
    exact bufferToData_rest extra _ _ _ h
  · simp only [if_neg hz] at h ⊢
    cases hd : readN5Header b with
    | throw e => rw [hd] at h; cases h
    | ub => rw [hd] at h; cases h
    | ok t =>
      obtain ⟨t1, t2, t3⟩ := t
      rw [hd, Res.ok_bind] at h
      rw [Res.ok_bind]
      exact bufferToData_rest extra _ _ _ h

theorem run_readChunk_append {ds : Dataset E} {c : List Nat} {dest out : List E.T} {v : Bool} {σ : Store}
    (extra : List E.T) (h : run (ds.readChunk c dest) σ = (.ok (v, out), σ)) :
    run (ds.readChunk c (dest ++ extra)) σ = (.ok (v, out ++ extra), σ) := by
  rw [run_of_touches (touches_readChunk ds c _)] at h ⊢
  have h2 := exec1_readOnly (readOnly_readChunk ds c (dest ++ extra)) (σ (ds.chunkKey c))
  rw [h2, upd_self]
  have h1 : (exec1 (ds.readChunk c dest) (σ (ds.chunkKey c))).1 = .ok (v, out) := (Prod.mk.inj h).1
  congr 1
  clear h h2
  unfold Dataset.readChunk at h1 ⊢
  cases hh : ds.handle c with
  | throw e => rw [hh] at h1; cases h1
  | ub => rw [hh] at h1; cases h1
  | ok s =>
    rw [hh] at h1
    cases hk : ds.checkChunk c false with
    | throw e => rw [hk] at h1; cases h1
    | ub => rw [hk] at h1; cases h1
    | ok u =>
      rw [hk] at h1
      simp only [bind_ok] at h1 ⊢
      rw [exec1_bind_ok (exec1_read ..)] at h1 ⊢
      cases hv : σ (ds.chunkKey c) with
      | none => rw [hv] at h1; cases h1
      | some b =>
        rw [hv] at h1
        exact bufferToData_append extra h1

theorem run_bind_not_ok {α β : Type} {p : Prog α} {g : α → Prog β} {σ : Store} {b : β}
    (h : (run (p >>= g) σ).1 = .ok b) : ∃ a, (run p σ).1 = .ok a := by
  induction p generalizing σ with
  | ret r =>
    cases r with
    | ok a => exact ⟨a, rfl⟩
    | throw e => cases h
    | ub => cases h
  | act k f c ih => exact ih (σ k) h

theorem readOnly_shardReadChunk (ds : ShardedDataset E) (c : List Nat) (dest : List E.T) :
    ReadOnly (ds.readChunk c dest) := by
  unfold ShardedDataset.readChunk
  refine ReadOnly.bind (ShardedDataset.readOnly_readRawChunk (sd := ds) c) fun r => ?_
  read_only

theorem readOnly_shardChunkExists (ds : ShardedDataset E) (c : List Nat) : ReadOnly (ds.chunkExists c) := by
  unfold ShardedDataset.chunkExists
  refine ReadOnly.bind (ReadOnly.ret _) fun s => ReadOnly.bind (ShardedDataset.readOnly_readShard (sd := ds) s) fun r => ?_
  read_only

theorem readOnly_chunkExists (ds : Dataset E) (c : List Nat) : ReadOnly (ds.chunkExists c) := by
  unfold Dataset.chunkExists
  read_only

theorem readOnly_checkVarlenChunk (ds : Dataset E) (c : List Nat) : ReadOnly (ds.checkVarlenChunk c) := by
  unfold Dataset.checkVarlenChunk
  repeat' first
    | exact ReadOnly.ret _ | exact readOnly_exists _ | exact readOnly_peek _
    | refine ReadOnly.bind ?_ (fun _ => ?_) | split | dsimp only

theorem touches_checkVarlenChunk (ds : Dataset E) (c : List Nat) :
    TouchesOnly (ds.chunkKey c) (ds.checkVarlenChunk c) := by
  unfold Dataset.checkVarlenChunk
  repeat' first
    | exact TouchesOnly.ret _ | exact touches_exists _ | exact touches_peek _
    | refine TouchesOnly.bind ?_ (fun _ => ?_) | split | dsimp only

theorem readOnly_storedElements {chunkSize : Nat} {z : Bool} {exist : Prog Bool} {cv : Prog (Bool × Nat)}
    {read : List E.T → Prog (Bool × List E.T)} (h1 : ReadOnly exist) (h2 : ReadOnly cv) (h3 : ∀ l, ReadOnly (read l)) :
    ReadOnly (storedElements chunkSize z exist cv read) := by
  unfold storedElements
  refine ReadOnly.bind h1 fun b => ?_
  split
  · exact ReadOnly.ret _
  · exact ReadOnly.bind h2 fun v => ReadOnly.bind (h3 _) fun o => ReadOnly.ret _

theorem touches_storedElements (ds : Dataset E) (c : List Nat) :
    TouchesOnly (ds.chunkKey c) (ds.storedElements c) := by
  unfold Dataset.storedElements storedElements
  refine TouchesOnly.bind (touches_chunkExists ds c) fun b => ?_
  split
  · exact TouchesOnly.ret _
  · exact TouchesOnly.bind (touches_checkVarlenChunk ds c) fun v =>
      TouchesOnly.bind (touches_readChunk ds c _) fun o => TouchesOnly.ret _

theorem run_shardReadChunk_append {ds : ShardedDataset E} {c : List Nat} {dest out : List E.T} {v : Bool} {σ : Store}
    (extra : List E.T) (h : run (ds.readChunk c dest) σ = (.ok (v, out), σ)) :
    run (ds.readChunk c (dest ++ extra)) σ = (.ok (v, out ++ extra), σ) := by
  unfold ShardedDataset.readChunk at h ⊢
  obtain ⟨b, hb⟩ := run_bind_not_ok (by rw [h])
  have hb' : run (ds.readRawChunk c) σ = (.ok b, σ) := by
    exact Prod.ext hb (run_readOnly (ShardedDataset.readOnly_readRawChunk (sd := ds) c) σ)
  rw [run_bind_ok hb'] at h ⊢
  cases hd : decompress E ds.codec b dest ds.chunkSize with
  | throw e => rw [hd] at h; cases h
  | ub => rw [hd] at h; cases h
  | ok o =>
    rw [hd] at h
    rw [decompress_append extra hd]
    cases h
    rfl

theorem run_storedElements_none {exist : Prog Bool} {cv : Prog (Bool × Nat)}
    {read : List E.T → Prog (Bool × List E.T)} {chunkSize : Nat} {isZarr : Bool} {σ : Store}
    (h : run exist σ = (.ok false, σ)) :
    run (storedElements chunkSize isZarr exist cv read) σ = (.ok none, σ) := by
  unfold storedElements
  rw [run_bind_ok h]
  rfl

theorem run_storedElements {exist : Prog Bool} {cv : Prog (Bool × Nat)} {read : List E.T → Prog (Bool × List E.T)}
    {chunkSize size : Nat} {isZarr : Bool} {σ : Store} {data : List E.T}
    (h : HoldsElements exist cv read size σ data)
    (happ : ∀ {v dest out} extra, run (read dest) σ = (.ok (v, out), σ) →
      run (read (dest ++ extra)) σ = (.ok (v, out ++ extra), σ))
    (hsize : isZarr = true → size = chunkSize)
    (hn : isZarr = false → ∀ n, run cv σ = (.ok (false, n), σ) → n = size) :
    run (storedElements chunkSize isZarr exist cv read) σ = (.ok (some data), σ) := by
  obtain ⟨h1, v, n, h2, h3, h4⟩ := h
  unfold storedElements
  rw [run_bind_ok h1]
  simp only [Bool.not_true, Bool.false_eq_true, if_false]
  rw [run_bind_ok h2]
  have hd : (if (!v && isZarr) = true then chunkSize else n) = data.length := by
    cases v
    · cases isZarr
      · simp [h3, hn rfl n h2]
      · simp [h3, hsize rfl]
    · simp [h3]
  simp only [hd]
  have hl : (resize E ([] : List E.T) (max chunkSize data.length)).length = max chunkSize data.length := length_resize ..
  generalize resize E ([] : List E.T) (max chunkSize data.length) = buf at hl
  have := happ (buf.drop data.length) (h4 (buf.take data.length) (by simp; omega))
  rw [List.take_append_drop] at this
  rw [run_bind_ok this]
  simp [run]

/-! ### sets and maps -/

theorem mem_setInsert {x y : E.T} : ∀ {s : List E.T}, y ∈ setInsert lt x s → y = x ∨ y ∈ s
  | [], h => by simpa [setInsert] using h
  | z :: s, h => by
    rw [setInsert] at h
    split at h
    · rcases List.mem_cons.1 h with h | h
      · exact .inl h
      · exact .inr h
    · split at h
      · rcases List.mem_cons.1 h with h | h
        · exact .inr (by simp [h])
        · rcases mem_setInsert h with h | h
          · exact .inl h
          · exact .inr (by simp [h])
      · exact .inr h

theorem sorted_setInsert (h : OrderedOn E lt P) {x : E.T} (hx : P x) : ∀ {s : List E.T}, (∀ a ∈ s, P a) →
    s.Pairwise (fun a b => lt a b = true) → (setInsert lt x s).Pairwise (fun a b => lt a b = true)
  | [], _, _ => by simp [setInsert]
  | z :: s, hs, hp => by
    rw [List.pairwise_cons] at hp
    have hz := hs z (by simp)
    rw [setInsert]
    split
    · rename_i h1
      refine List.pairwise_cons.2 ⟨fun b hb => ?_, List.pairwise_cons.2 hp⟩
      rcases List.mem_cons.1 hb with rfl | hb
      · exact h1
      · exact h.trans x z b hx hz (hs b (by simp [hb])) h1 (hp.1 b hb)
    · split
      · rename_i h1 h2
        refine List.pairwise_cons.2 ⟨fun b hb => ?_, sorted_setInsert h hx (fun a ha => hs a (by simp [ha])) hp.2⟩
        rcases mem_setInsert hb with rfl | hb
        · exact h2
        · exact hp.1 b hb
      · exact List.pairwise_cons.2 hp

theorem occurs_cons {x v : E.T} {l : List E.T} : Occurs E (x :: l) v ↔ E.ceq x v = true ∨ Occurs E l v := by
  simp [Occurs]

theorem occurs_append {v : E.T} {l m : List E.T} : Occurs E (l ++ m) v ↔ Occurs E l v ∨ Occurs E m v := by
  simp only [Occurs, List.mem_append]
  constructor
  · rintro ⟨z, h | h, e⟩
    · exact .inl ⟨z, h, e⟩
    · exact .inr ⟨z, h, e⟩
  · rintro (⟨z, h, e⟩ | ⟨z, h, e⟩)
    · exact ⟨z, .inl h, e⟩
    · exact ⟨z, .inr h, e⟩

theorem ceq_congr (h : OrderedOn E lt P) {x y v : E.T} (hx : P x) (hy : P y) (hv : P v) (e : E.ceq x y = true) :
    E.ceq x v = E.ceq y v := by
  cases h1 : E.ceq x v
  · cases h2 : E.ceq y v
    · rfl
    · rw [h.ceqTrans x y v hx hy hv e h2] at h1; cases h1
  · exact (h.ceqTrans y x v hy hx hv (h.symm hx hy e) h1).symm

theorem occurs_setInsert (h : OrderedOn E lt P) {x v : E.T} (hx : P x) (hv : P v) : ∀ {s : List E.T},
    (∀ a ∈ s, P a) → (Occurs E (setInsert lt x s) v ↔ E.ceq x v = true ∨ Occurs E s v)
  | [], _ => by simp [setInsert, Occurs]
  | z :: s, hs => by
    have hz := hs z (by simp)
    rw [setInsert]
    split
    · rw [occurs_cons]
    · split
      · rw [occurs_cons, occurs_cons, occurs_setInsert h hx hv fun a ha => hs a (by simp [ha])]
        constructor
        · rintro (e | e | e)
          · exact .inr (.inl e)
          · exact .inl e
          · exact .inr (.inr e)
        · rintro (e | e | e)
          · exact .inr (.inl e)
          · exact .inl e
          · exact .inr (.inr e)
      · rename_i h1 h2
        have e : E.ceq x z = true := (h.same x z hx hz).2 ⟨by simpa using h1, by simpa using h2⟩
        rw [occurs_cons, ceq_congr h hx hz hv e]
        constructor
        · exact .inr
        · rintro (e | e)
          · exact .inl e
          · exact e

/-- what is known of a set -/
structure SetOk (lt : E.T → E.T → Bool) (P : E.T → Prop) (s : List E.T) : Prop where
  good : ∀ a ∈ s, P a
  sorted : s.Pairwise fun a b => lt a b = true

theorem setFold_spec (h : OrderedOn E lt P) : ∀ (l : List E.T) {s : List E.T}, (∀ a ∈ l, P a) → SetOk lt P s →
    SetOk lt P (l.foldl (fun s x => setInsert lt x s) s) ∧
    (∀ a ∈ l.foldl (fun s x => setInsert lt x s) s, a ∈ s ∨ a ∈ l) ∧
    (∀ v, P v → (Occurs E (l.foldl (fun s x => setInsert lt x s) s) v ↔ Occurs E s v ∨ Occurs E l v))
  | [], s, _, hs => ⟨hs, fun a ha => .inl ha, fun v _ => by simp [Occurs]⟩
  | x :: l, s, hl, hs => by
    have hx := hl x (by simp)
    have hs' : SetOk lt P (setInsert lt x s) := ⟨fun a ha => by
      rcases mem_setInsert ha with rfl | ha
      · exact hx
      · exact hs.good a ha, sorted_setInsert h hx hs.good hs.sorted⟩
    obtain ⟨h1, h2, h3⟩ := setFold_spec h l (fun a ha => hl a (by simp [ha])) hs'
    refine ⟨h1, fun a ha => ?_, fun v hv => ?_⟩
    · rcases h2 a ha with ha | ha
      · rcases mem_setInsert ha with rfl | ha
        · exact .inr (by simp)
        · exact .inl ha
      · exact .inr (by simp [ha])
    · rw [List.foldl_cons, h3 v hv, occurs_setInsert h hx hv hs.good, occurs_cons]
      constructor
      · rintro ((e | e) | e)
        · exact .inr (.inl e)
        · exact .inl e
        · exact .inr (.inr e)
      · rintro (e | e | e)
        · exact .inl (.inr e)
        · exact .inl (.inl e)
        · exact .inr e

theorem setInsertAll_spec (h : OrderedOn E lt P) {s l : List E.T} (hl : ∀ a ∈ l, P a) (hs : SetOk lt P s) :
    ∃ s', setInsertAll lt s l = .ok s' ∧ SetOk lt P s' ∧ (∀ a ∈ s', a ∈ s ∨ a ∈ l) ∧
      ∀ v, P v → (Occurs E s' v ↔ Occurs E s v ∨ Occurs E l v) := by
  refine ⟨_, if_pos (h.weakOrder fun a ha => ?_), setFold_spec h l hl hs⟩
  rcases List.mem_append.1 ha with ha | ha
  · exact hs.good a ha
  · exact hl a ha

theorem setsFold_spec (h : OrderedOn E lt P) : ∀ (ls : List (List E.T)) {s : List E.T}, (∀ l ∈ ls, ∀ a ∈ l, P a) →
    SetOk lt P s → ∃ s', ls.foldlM (setInsertAll lt) s = .ok s' ∧ SetOk lt P s' ∧
      (∀ a ∈ s', a ∈ s ∨ a ∈ ls.flatten) ∧ ∀ v, P v → (Occurs E s' v ↔ Occurs E s v ∨ Occurs E ls.flatten v)
  | [], s, _, hs => ⟨s, rfl, hs, fun a ha => .inl ha, fun v _ => by simp [Occurs]⟩
  | l :: ls, s, hl, hs => by
    obtain ⟨s1, e1, h1, h2, h3⟩ := setInsertAll_spec h (hl l (by simp)) hs
    obtain ⟨s2, e2, h4, h5, h6⟩ := setsFold_spec h ls (fun l hm => hl l (by simp [hm])) h1
    refine ⟨s2, by rw [List.foldlM_cons, e1]; exact e2, h4, fun a ha => ?_, fun v hv => ?_⟩
    · rw [List.flatten_cons, List.mem_append]
      rcases h5 a ha with ha | ha
      · rcases h2 a ha with ha | ha
        · exact .inl ha
        · exact .inr (.inl ha)
      · exact .inr (.inr ha)
    · rw [h6 v hv, h3 v hv, List.flatten_cons, occurs_append, or_assoc]

theorem mem_mapAdd {x : E.T} {n : Nat} {e : E.T × Nat} : ∀ {m : List (E.T × Nat)}, e ∈ mapAdd lt x n m →
    e.1 = x ∨ e.1 ∈ m.map Prod.fst
  | [], h => by
    simp only [mapAdd, List.mem_singleton] at h
    exact .inl (by rw [h])
  | y :: m, h => by
    rw [mapAdd] at h
    split at h
    · rcases List.mem_cons.1 h with h | h
      · exact .inl (by rw [h])
      · exact .inr (List.mem_map_of_mem h)
    · split at h
      · rcases List.mem_cons.1 h with h | h
        · exact .inr (by rw [h]; simp)
        · rcases mem_mapAdd h with h | h
          · exact .inl h
          · exact .inr (by rw [List.map_cons]; exact List.mem_cons_of_mem _ h)
      · rcases List.mem_cons.1 h with h | h
        · exact .inr (by rw [h]; simp)
        · exact .inr (by rw [List.map_cons]; exact List.mem_cons_of_mem _ (List.mem_map_of_mem h))

/-- what is known of a map -/
structure MapOk (lt : E.T → E.T → Bool) (P : E.T → Prop) (m : List (E.T × Nat)) : Prop where
  good : ∀ e ∈ m, P e.1
  sorted : m.Pairwise fun a b => lt a.1 b.1 = true
  small : ∀ e ∈ m, e.2 < 2 ^ 64

theorem mapOk_mapAdd (h : OrderedOn E lt P) {x : E.T} {n : Nat} (hx : P x) (hn : n < 2 ^ 64) :
    ∀ {m : List (E.T × Nat)}, MapOk lt P m → MapOk lt P (mapAdd lt x n m)
  | [], _ => ⟨by simp [mapAdd, hx], by simp [mapAdd], by simp [mapAdd, hn]⟩
  | y :: m, hm => by
    have hp := List.pairwise_cons.1 hm.sorted
    have hy := hm.good y (by simp)
    have hm' : MapOk lt P m := ⟨fun e he => hm.good e (by simp [he]), hp.2, fun e he => hm.small e (by simp [he])⟩
    rw [mapAdd]
    split
    · rename_i h1
      refine ⟨fun e he => ?_, ?_, fun e he => ?_⟩
      · rcases List.mem_cons.1 he with rfl | he
        · exact hx
        · exact hm.good e he
      · refine List.pairwise_cons.2 ⟨fun b hb => ?_, hm.sorted⟩
        rcases List.mem_cons.1 hb with rfl | hb
        · exact h1
        · exact h.trans x y.1 b.1 hx hy (hm'.good b hb) h1 (hp.1 b hb)
      · rcases List.mem_cons.1 he with rfl | he
        · exact hn
        · exact hm.small e he
    · split
      · rename_i h1 h2
        have ih := mapOk_mapAdd h hx hn hm'
        refine ⟨fun e he => ?_, ?_, fun e he => ?_⟩
        · rcases List.mem_cons.1 he with rfl | he
          · exact hy
          · exact ih.good e he
        · refine List.pairwise_cons.2 ⟨fun b hb => ?_, ih.sorted⟩
          rcases mem_mapAdd hb with e | hb
          · rw [e]; exact h2
          · obtain ⟨b', hb', e⟩ := List.mem_map.1 hb
            rw [← e]; exact hp.1 b' hb'
        · rcases List.mem_cons.1 he with rfl | he
          · exact hm.small _ (by simp)
          · exact ih.small e he
      · refine ⟨fun e he => ?_, ?_, fun e he => ?_⟩
        · rcases List.mem_cons.1 he with rfl | he
          · exact hy
          · exact hm'.good e he
        · exact List.pairwise_cons.2 ⟨fun b hb => hp.1 b hb, hp.2⟩
        · rcases List.mem_cons.1 he with rfl | he
          · exact Nat.mod_lt _ (by decide)
          · exact hm'.small e he

theorem mapCount_cons (e : E.T × Nat) (m : List (E.T × Nat)) (v : E.T) :
    mapCount E (e :: m) v = (if E.ceq e.1 v = true then e.2 else 0) + mapCount E m v := by
  unfold mapCount
  by_cases h : E.ceq e.1 v = true
  · rw [List.filter_cons, if_pos h, if_pos h, List.map_cons, List.sum_cons]
  · rw [List.filter_cons, if_neg h, if_neg h, Nat.zero_add]

theorem mapCount_mapAdd (h : OrderedOn E lt P) {x v : E.T} {n : Nat} (hx : P x) (hv : P v) :
    ∀ {m : List (E.T × Nat)}, (∀ e ∈ m, P e.1) →
    mapCount E (mapAdd lt x n m) v % 2 ^ 64 = (mapCount E m v + if E.ceq x v = true then n else 0) % 2 ^ 64
  | [], _ => by rw [mapAdd, mapCount_cons, Nat.add_comm]
  | y :: m, hm => by
    rw [mapAdd]
    split
    · rw [mapCount_cons, Nat.add_comm]
    · split
      · have ih := mapCount_mapAdd h hx hv (n := n) fun e he => hm e (List.mem_cons_of_mem _ he)
        rw [mapCount_cons, mapCount_cons, Nat.add_assoc, Nat.add_mod, ih, ← Nat.add_mod]
      · rename_i h1 h2
        have hy := hm y (by simp)
        have e : E.ceq x y.1 = true := (h.same x y.1 hx hy).2 ⟨by simpa using h1, by simpa using h2⟩
        rw [mapCount_cons, mapCount_cons, ceq_congr h hx hy hv e]
        unfold wadd
        split
        · simp only [Nat.add_mod, Nat.mod_mod]
          omega
        · simp

theorem occurs_mapAdd (h : OrderedOn E lt P) {x v : E.T} {n : Nat} (hx : P x) (hv : P v) :
    ∀ {m : List (E.T × Nat)}, (∀ e ∈ m, P e.1) →
    (Occurs E ((mapAdd lt x n m).map Prod.fst) v ↔ E.ceq x v = true ∨ Occurs E (m.map Prod.fst) v)
  | [], _ => by simp [mapAdd, Occurs]
  | y :: m, hm => by
    rw [mapAdd]
    split
    · rw [List.map_cons, occurs_cons]
    · split
      · rw [List.map_cons, List.map_cons, occurs_cons, occurs_cons,
          occurs_mapAdd h hx hv fun e he => hm e (List.mem_cons_of_mem _ he)]
        constructor
        · rintro (e | e | e)
          · exact .inr (.inl e)
          · exact .inl e
          · exact .inr (.inr e)
        · rintro (e | e | e)
          · exact .inr (.inl e)
          · exact .inl e
          · exact .inr (.inr e)
      · rename_i h1 h2
        have hy := hm y (by simp)
        have e : E.ceq x y.1 = true := (h.same x y.1 hx hy).2 ⟨by simpa using h1, by simpa using h2⟩
        rw [List.map_cons, List.map_cons, occurs_cons, ceq_congr h hx hy hv e]
        constructor
        · exact .inr
        · rintro (e | e)
          · exact .inl e
          · exact e

/-- what a loop over `mapAdd` gives -/
structure MapSum (lt : E.T → E.T → Bool) (P : E.T → Prop) (m l m' : List (E.T × Nat)) : Prop where
  ok : MapOk lt P m'
  mem : ∀ e ∈ m', e.1 ∈ m.map Prod.fst ∨ e.1 ∈ l.map Prod.fst
  occurs : ∀ v, P v → (Occurs E (m'.map Prod.fst) v ↔ Occurs E (m.map Prod.fst) v ∨ Occurs E (l.map Prod.fst) v)
  count : ∀ v, P v → mapCount E m' v % 2 ^ 64 = (mapCount E m v + mapCount E l v) % 2 ^ 64

theorem MapSum.refl {m : List (E.T × Nat)} (hm : MapOk lt P m) : MapSum lt P m [] m :=
  ⟨hm, fun e he => .inl (List.mem_map_of_mem he), fun v _ => by simp [Occurs], fun v _ => by simp [mapCount]⟩

theorem mapCount_append (l m : List (E.T × Nat)) (v : E.T) :
    mapCount E (l ++ m) v = mapCount E l v + mapCount E m v := by
  unfold mapCount
  rw [List.filter_append, List.map_append, List.sum_append]

theorem MapSum.trans {m l m1 k m2 : List (E.T × Nat)} (h1 : MapSum lt P m l m1) (h2 : MapSum lt P m1 k m2) :
    MapSum lt P m (l ++ k) m2 where
  ok := h2.ok
  mem e he := by
    rw [List.map_append, List.mem_append]
    rcases h2.mem e he with h | h
    · obtain ⟨e', he', hee⟩ := List.mem_map.1 h
      rw [← hee]
      rcases h1.mem e' he' with h | h
      · exact .inl h
      · exact .inr (.inl h)
    · exact .inr (.inr h)
  occurs v hv := by rw [h2.occurs v hv, h1.occurs v hv, List.map_append, occurs_append, or_assoc]
  count v hv := by
    rw [h2.count v hv, mapCount_append, Nat.add_mod, h1.count v hv, ← Nat.add_mod, Nat.add_assoc]

theorem mapFold_spec (h : OrderedOn E lt P) : ∀ (l : List (E.T × Nat)) {m : List (E.T × Nat)},
    (∀ e ∈ l, P e.1 ∧ e.2 < 2 ^ 64) → MapOk lt P m →
    MapSum lt P m l (l.foldl (fun m x => mapAdd lt x.1 x.2 m) m)
  | [], m, _, hm => MapSum.refl hm
  | x :: l, m, hl, hm => by
    obtain ⟨hx, hn⟩ := hl x (by simp)
    have h1 : MapSum lt P m [x] (mapAdd lt x.1 x.2 m) := by
      refine ⟨mapOk_mapAdd h hx hn hm, fun e he => ?_, fun v hv => ?_, fun v hv => ?_⟩
      · rcases mem_mapAdd he with e | e
        · exact .inr (by simp [e])
        · exact .inl e
      · rw [occurs_mapAdd h hx hv hm.good]
        simp [Occurs, or_comm]
      · rw [mapCount_mapAdd h hx hv hm.good, mapCount_cons]
        simp [mapCount]
    exact h1.trans (mapFold_spec h l (fun e he => hl e (List.mem_cons_of_mem _ he)) h1.ok)

theorem mapAddAll_spec (h : OrderedOn E lt P) {m l : List (E.T × Nat)} (hl : ∀ e ∈ l, P e.1 ∧ e.2 < 2 ^ 64)
    (hm : MapOk lt P m) : ∃ m', mapAddAll lt m l = .ok m' ∧ MapSum lt P m l m' := by
  refine ⟨_, if_pos (h.weakOrder fun a ha => ?_), mapFold_spec h l hl hm⟩
  rcases List.mem_append.1 ha with ha | ha
  · obtain ⟨e, he, rfl⟩ := List.mem_map.1 ha
    exact hm.good e he
  · obtain ⟨e, he, rfl⟩ := List.mem_map.1 ha
    exact (hl e he).1

theorem mapsFold_spec (h : OrderedOn E lt P) : ∀ (ls : List (List (E.T × Nat))) {m : List (E.T × Nat)},
    (∀ l ∈ ls, ∀ e ∈ l, P e.1 ∧ e.2 < 2 ^ 64) → MapOk lt P m →
    ∃ m', ls.foldlM (mapAddAll lt) m = .ok m' ∧ MapSum lt P m ls.flatten m'
  | [], m, _, hm => ⟨m, rfl, MapSum.refl hm⟩
  | l :: ls, m, hl, hm => by
    obtain ⟨m1, e1, h1⟩ := mapAddAll_spec h (hl l (by simp)) hm
    obtain ⟨m2, e2, h2⟩ := mapsFold_spec h ls (fun l hm => hl l (by simp [hm])) h1.ok
    exact ⟨m2, by rw [List.foldlM_cons, e1]; exact e2, h1.trans h2⟩

/-- in a map, the count of an entry -/
theorem MapOk.count_eq (h : OrderedOn E lt P) : ∀ {m : List (E.T × Nat)}, MapOk lt P m → ∀ e ∈ m,
    mapCount E m e.1 = e.2
  | y :: m, hm, e, he => by
    have hp := List.pairwise_cons.1 hm.sorted
    have hy := hm.good y (by simp)
    have hm' : MapOk lt P m := ⟨fun e he => hm.good e (by simp [he]), hp.2, fun e he => hm.small e (by simp [he])⟩
    have hno : ∀ b ∈ m, E.ceq b.1 y.1 ≠ true := fun b hb hc => by
      have := ((h.same b.1 y.1 (hm'.good b hb) hy).1 hc).2
      rw [hp.1 b hb] at this; cases this
    rw [mapCount_cons]
    rcases List.mem_cons.1 he with rfl | he
    · rw [if_pos (h.refl _ hy)]
      have : mapCount E m e.1 = 0 := by
        unfold mapCount
        rw [List.filter_eq_nil_iff.2 hno]; rfl
      omega
    · rw [if_neg fun hc => hno e he (h.symm hy (hm'.good e he) hc), MapOk.count_eq h hm' e he, Nat.zero_add]

theorem mapCount_ones (l : List E.T) (v : E.T) : mapCount E (l.map fun x => (x, 1)) v = occurrences E l v := by
  induction l with
  | nil => rfl
  | cons x l ih =>
    rw [List.map_cons, mapCount_cons, ih]
    unfold occurrences
    rw [List.countP_cons]
    split <;> omega

/-! ### the results of the threads -/

/-- `R` holds of the elements of the two lists, pairwise -/
def Related {α β : Type} (R : α → β → Prop) : List α → List β → Prop
  | [], [] => True
  | a :: l, b :: m => R a b ∧ Related R l m
  | _, _ => False

theorem mapM_ok {α β : Type} {F : α → Res β} {R : α → β → Prop} : ∀ (l : List α), (∀ a ∈ l, ∃ b, F a = .ok b ∧ R a b) →
    ∃ bs, l.mapM F = .ok bs ∧ Related R l bs
  | [], _ => ⟨[], rfl, trivial⟩
  | a :: l, h => by
    obtain ⟨b, hb, hr⟩ := h a (by simp)
    obtain ⟨bs, hbs, hrs⟩ := mapM_ok l fun a ha => h a (by simp [ha])
    refine ⟨b :: bs, ?_, hr, hrs⟩
    rw [List.mapM_cons, hb]
    show (l.mapM F >>= fun bs => pure (b :: bs)) = _
    rw [hbs]; rfl

theorem fm_none {T : Type} {t : Nat × Nat × Option (List T)} {l : List (Nat × Nat × Option (List T))}
    (h : t.2.2 = none) : ((t :: l).filterMap fun t => t.2.2) = l.filterMap fun t => t.2.2 := by
  rw [List.filterMap_cons]; simp only [h]

theorem fm_some {T : Type} {t : Nat × Nat × Option (List T)} {l : List (Nat × Nat × Option (List T))} {x : List T}
    (h : t.2.2 = some x) : ((t :: l).filterMap fun t => t.2.2) = x :: l.filterMap fun t => t.2.2 := by
  rw [List.filterMap_cons]; simp only [h]

theorem perm_threads {T : Type} : ∀ (res : List (Nat × Nat × Option (List T))) {n : Nat}, (∀ t ∈ res, t.1 < n) →
    ((List.range n).flatMap (addedBy res)).Perm (res.filterMap fun t => t.2.2)
  | [], n, _ => by simp [addedBy]
  | t :: res, n, h => by
    have ih := perm_threads res (n := n) fun t ht => h t (by simp [ht])
    have ht := h t (by simp)
    cases ho : t.2.2 with
    | none =>
      have : addedBy (t :: res) = addedBy res := by
        funext i
        unfold addedBy
        by_cases hi : t.1 = i
        · rw [List.filter_cons_of_pos (by simpa using hi), fm_none ho]
        · rw [List.filter_cons_of_neg (by simpa using hi)]
      rw [this, fm_none ho]
      exact ih
    | some l =>
      rw [fm_some ho]
      have hadd : ∀ i, addedBy (t :: res) i = if t.1 = i then l :: addedBy res i else addedBy res i := by
        intro i
        unfold addedBy
        by_cases hi : t.1 = i
        · rw [List.filter_cons_of_pos (by simpa using hi), fm_some ho, if_pos hi]
        · rw [List.filter_cons_of_neg (by simpa using hi), if_neg hi]
      refine List.Perm.trans ?_ (ih.cons l)
      clear ih
      generalize hr : List.range n = r
      have hmem : t.1 ∈ r := by rw [← hr]; exact List.mem_range.2 ht
      have hnd : r.Nodup := by rw [← hr]; exact List.nodup_range
      clear hr ht h
      induction r with
      | nil => simp at hmem
      | cons i r ih =>
        rw [List.nodup_cons] at hnd
        rw [List.flatMap_cons, List.flatMap_cons, hadd]
        by_cases hi : t.1 = i
        · rw [if_pos hi]
          have : r.flatMap (addedBy (t :: res)) = r.flatMap (addedBy res) := by
            rw [List.flatMap_def, List.flatMap_def]
            congr 1
            apply List.map_congr_left
            intro j hj
            rw [hadd, if_neg]
            intro e
            exact hnd.1 (by rw [← hi, e]; exact hj)
          rw [this]
          exact List.Perm.refl _
        · rw [if_neg hi]
          have hm : t.1 ∈ r := (List.mem_cons.1 hmem).resolve_left hi
          refine ((ih hm hnd.2).append_left _).trans ?_
          exact List.perm_middle

theorem threadsInRange_of {T : Type} {n : Nat} {res : List (Nat × Nat × T)} (h : ∀ t ∈ res, t.1 < n) :
    threadsInRange n res = true := by
  unfold threadsInRange
  rw [List.all_eq_true]
  intro t ht
  have := h t ht
  simp only [decide_eq_true_eq]
  omega

/-- thread 0 and the other threads -/
theorem perm_split {T : Type} {res : List (Nat × Nat × Option (List T))} {n : Nat} (hn : 1 ≤ n)
    (h : ∀ t ∈ res, t.1 < n) :
    (addedBy res 0 ++ (List.range (n - 1)).flatMap fun t => addedBy res (t + 1)).Perm
      (res.filterMap fun t => t.2.2) := by
  have := perm_threads res h
  obtain ⟨m, rfl⟩ : ∃ m, n = m + 1 := ⟨n - 1, by omega⟩
  rw [List.range_succ_eq_map, List.flatMap_cons, List.flatMap_map] at this
  exact this

theorem mem_res {T : Type} {res : List (Nat × Nat × Option (List T))} {l : List T} {i : Nat} (h : l ∈ addedBy res i) :
    l ∈ res.filterMap fun t => t.2.2 := by
  unfold addedBy at h
  rw [List.mem_filterMap] at h ⊢
  obtain ⟨t, ht, e⟩ := h
  exact ⟨t, (List.mem_filter.1 ht).1, e⟩

theorem Related.exists_left {α β : Type} {R : α → β → Prop} : ∀ {l : List α} {m : List β}, Related R l m →
    ∀ b ∈ m, ∃ a ∈ l, R a b
  | [], [], _, _, hb => by simp at hb
  | a :: l, c :: m, h, b, hb => by
    rcases List.mem_cons.1 hb with rfl | hb
    · exact ⟨a, by simp, h.1⟩
    · obtain ⟨a, ha, hr⟩ := Related.exists_left h.2 b hb
      exact ⟨a, by simp [ha], hr⟩

theorem Related.exists_right {α β : Type} {R : α → β → Prop} : ∀ {l : List α} {m : List β}, Related R l m →
    ∀ a ∈ l, ∃ b ∈ m, R a b
  | [], [], _, _, hb => by simp at hb
  | a :: l, c :: m, h, b, hb => by
    rcases List.mem_cons.1 hb with rfl | hb
    · exact ⟨c, by simp, h.1⟩
    · obtain ⟨a, ha, hr⟩ := Related.exists_right h.2 b hb
      exact ⟨a, by simp [ha], hr⟩

theorem uniqueOf_spec (h : OrderedOn E lt P) {n : Nat} (hn : 1 ≤ n) {uniques : List E.T}
    {res : List (Nat × Nat × Option (List E.T))} (hu : SetOk lt P uniques) (ht : ∀ t ∈ res, t.1 < n)
    (hP : ∀ l ∈ res.filterMap (fun t => t.2.2), ∀ a ∈ l, P a) :
    ∃ s, uniqueOf lt n uniques res = .ok s ∧ SetOk lt P s ∧
      (∀ a ∈ s, a ∈ uniques ∨ ∃ l ∈ res.filterMap (fun t => t.2.2), a ∈ l) ∧
      ∀ v, P v → (Occurs E s v ↔ Occurs E uniques v ∨ ∃ l ∈ res.filterMap (fun t => t.2.2), Occurs E l v) := by
  have hnil : SetOk lt P ([] : List E.T) := ⟨by simp, by simp⟩
  obtain ⟨u, e1, h1, h2, h3⟩ := setsFold_spec h (addedBy res 0) (fun l hl => hP l (mem_res hl)) hu
  obtain ⟨td, e2, hrel⟩ := mapM_ok (F := fun t => (addedBy res (t + 1)).foldlM (setInsertAll lt) [])
    (R := fun t s' => SetOk lt P s' ∧ (∀ a ∈ s', a ∈ (addedBy res (t + 1)).flatten) ∧
      ∀ v, P v → (Occurs E s' v ↔ Occurs E (addedBy res (t + 1)).flatten v))
    (List.range (n - 1)) (fun t _ => by
      obtain ⟨s', e, k1, k2, k3⟩ := setsFold_spec h (addedBy res (t + 1)) (fun l hl => hP l (mem_res hl)) hnil
      exact ⟨s', e, k1, fun a ha => (k2 a ha).resolve_left (by simp), fun v hv => by
        rw [k3 v hv]; simp [Occurs]⟩)
  obtain ⟨s, e3, h4, h5, h6⟩ := setsFold_spec h td (fun l hl => by
    obtain ⟨t, _, k1, _⟩ := hrel.exists_left l hl
    exact k1.good) h1
  have hmem : ∀ {l : List E.T} {a : E.T} {t : Nat}, a ∈ (addedBy res t).flatten →
      ∃ l ∈ res.filterMap (fun t => t.2.2), a ∈ l := by
    intro _ a t ha
    obtain ⟨l, hl, ha⟩ := List.mem_flatten.1 ha
    exact ⟨l, mem_res hl, ha⟩
  have hocc : ∀ {v : E.T} {t : Nat}, Occurs E (addedBy res t).flatten v →
      ∃ l ∈ res.filterMap (fun t => t.2.2), Occurs E l v := by
    rintro v t ⟨z, hz, e⟩
    obtain ⟨l, hl, hz⟩ := List.mem_flatten.1 hz
    exact ⟨l, mem_res hl, z, hz, e⟩
  refine ⟨s, ?_, h4, fun a ha => ?_, fun v hv => ?_⟩
  · unfold uniqueOf
    rw [threadsInRange_of ht]
    simp only [Bool.not_true, Bool.false_eq_true, if_false]
    rw [e1, Res.ok_bind, e2, Res.ok_bind, e3]
  · rcases h5 a ha with ha | ha
    · rcases h2 a ha with ha | ha
      · exact .inl ha
      · exact .inr (hmem (l := []) ha)
    · obtain ⟨l, hl, ha⟩ := List.mem_flatten.1 ha
      obtain ⟨t, _, _, k2, _⟩ := hrel.exists_left l hl
      exact .inr (hmem (l := []) (k2 a ha))
  · rw [h6 v hv, h3 v hv]
    constructor
    · rintro ((e | e) | ⟨z, hz, e⟩)
      · exact .inl e
      · exact .inr (hocc e)
      · obtain ⟨l, hl, hz⟩ := List.mem_flatten.1 hz
        obtain ⟨t, _, _, _, k3⟩ := hrel.exists_left l hl
        exact .inr (hocc ((k3 v hv).1 ⟨z, hz, e⟩))
    · rintro (e | ⟨l, hl, z, hz, e⟩)
      · exact .inl (.inl e)
      · have := (perm_split hn ht).mem_iff.2 hl
        rcases List.mem_append.1 this with hl | hl
        · exact .inl (.inr ⟨z, List.mem_flatten.2 ⟨l, hl, hz⟩, e⟩)
        · obtain ⟨t, ht', hl⟩ := List.mem_flatMap.1 hl
          obtain ⟨s', hs', _, _, k3⟩ := hrel.exists_right t ht'
          obtain ⟨z', hz', e'⟩ := (k3 v hv).2 ⟨z, List.mem_flatten.2 ⟨l, hl, hz⟩, e⟩
          exact .inr ⟨z', List.mem_flatten.2 ⟨s', hs', hz'⟩, e'⟩

theorem foldlM_map {α β γ : Type} (f : β → α) (g : γ → α → Res γ) : ∀ (l : List β) (b : γ),
    l.foldlM (fun b x => g b (f x)) b = (l.map f).foldlM g b
  | [], _ => rfl
  | x :: l, b => by
    rw [List.foldlM_cons, List.map_cons, List.foldlM_cons]
    congr 1
    funext b
    exact foldlM_map f g l b

/-- the elements of the chunks, each with count 1 -/
def ones (ls : List (List E.T)) : List (E.T × Nat) := (ls.map fun l => l.map fun x => (x, 1)).flatten

theorem mapCount_ones_flatten (ls : List (List E.T)) (v : E.T) :
    mapCount E (ones ls) v = (ls.map fun l => occurrences E l v).sum := by
  induction ls with
  | nil => rfl
  | cons l ls ih =>
    unfold ones at *
    rw [List.map_cons, List.flatten_cons, mapCount_append, mapCount_ones, ih, List.map_cons, List.sum_cons]

theorem fst_ones (ls : List (List E.T)) : (ones ls).map Prod.fst = ls.flatten := by
  induction ls with
  | nil => rfl
  | cons l ls ih =>
    unfold ones at *
    rw [List.map_cons, List.flatten_cons, List.map_append, ih, List.flatten_cons, List.map_map]
    congr 1
    exact List.map_id l

theorem sum_flatMap {β : Type} (f : β → Nat) (g : Nat → List β) : ∀ l : List Nat,
    ((l.flatMap g).map f).sum = (l.map fun t => ((g t).map f).sum).sum
  | [] => rfl
  | a :: l => by rw [List.flatMap_cons, List.map_append, List.sum_append, sum_flatMap f g l, List.map_cons, List.sum_cons]

theorem sum_related {R : Nat → List (E.T × Nat) → Prop} {v : E.T} {f : Nat → Nat} :
    ∀ {l : List Nat} {m : List (List (E.T × Nat))}, Related R l m →
    (∀ t x, R t x → mapCount E x v % 2 ^ 64 = f t % 2 ^ 64) →
    mapCount E m.flatten v % 2 ^ 64 = (l.map f).sum % 2 ^ 64
  | [], [], _, _ => rfl
  | t :: l, x :: m, h, hf => by
    rw [List.flatten_cons, mapCount_append, List.map_cons, List.sum_cons, Nat.add_mod, hf t x h.1,
      sum_related h.2 hf, ← Nat.add_mod]

theorem uniqueCountsOf_spec (h : OrderedOn E lt P) {n : Nat} (hn : 1 ≤ n) {uniques : List (E.T × Nat)}
    {res : List (Nat × Nat × Option (List E.T))} (hu : MapOk lt P uniques) (ht : ∀ t ∈ res, t.1 < n)
    (hP : ∀ l ∈ res.filterMap (fun t => t.2.2), ∀ a ∈ l, P a) :
    ∃ m, uniqueCountsOf lt n uniques res = .ok m ∧ MapOk lt P m ∧
      (∀ e ∈ m, e.1 ∈ uniques.map Prod.fst ∨ ∃ l ∈ res.filterMap (fun t => t.2.2), e.1 ∈ l) ∧
      (∀ v, P v → (Occurs E (m.map Prod.fst) v ↔ Occurs E (uniques.map Prod.fst) v ∨
        ∃ l ∈ res.filterMap (fun t => t.2.2), Occurs E l v)) ∧
      ∀ v, P v → mapCount E m v % 2 ^ 64 =
        (mapCount E uniques v + ((res.filterMap fun t => t.2.2).map fun l => occurrences E l v).sum) % 2 ^ 64 := by
  have hnil : MapOk lt P ([] : List (E.T × Nat)) := ⟨by simp, by simp, by simp⟩
  have hones : ∀ i, ∀ l ∈ (addedBy res i).map (fun l => l.map fun x => (x, 1)), ∀ e ∈ l, P e.1 ∧ e.2 < 2 ^ 64 := by
    intro i l hl e he
    obtain ⟨l', hl', rfl⟩ := List.mem_map.1 hl
    obtain ⟨a, ha, rfl⟩ := List.mem_map.1 he
    exact ⟨hP l' (mem_res hl') a ha, by show 1 < 2 ^ 64; decide⟩
  obtain ⟨u, e1, h1⟩ := mapsFold_spec h _ (hones 0) hu
  obtain ⟨td, e2, hrel⟩ := mapM_ok
    (F := fun t => ((addedBy res (t + 1)).map fun l => l.map fun x => (x, 1)).foldlM (mapAddAll lt) [])
    (R := fun t m' => MapSum lt P [] (ones (addedBy res (t + 1))) m')
    (List.range (n - 1)) (fun t _ => mapsFold_spec h _ (hones (t + 1)) hnil)
  obtain ⟨m, e3, h4⟩ := mapsFold_spec h td (fun l hl e he => by
    obtain ⟨t, _, k1⟩ := hrel.exists_left l hl
    exact ⟨k1.ok.good e he, k1.ok.small e he⟩) h1.ok
  have h1 : MapSum lt P uniques (ones (addedBy res 0)) u := h1
  refine ⟨m, ?_, h4.ok, fun e he => ?_, fun v hv => ?_, fun v hv => ?_⟩
  · unfold uniqueCountsOf
    rw [threadsInRange_of ht]
    simp only [Bool.not_true, Bool.false_eq_true, if_false]
    rw [foldlM_map (fun l : List E.T => l.map fun x => (x, 1)) (mapAddAll lt), e1, Res.ok_bind]
    simp only [foldlM_map (fun l : List E.T => l.map fun x => (x, 1)) (mapAddAll lt)]
    rw [e2, Res.ok_bind, e3]
  · rcases (h1.trans h4).mem e he with ha | ha
    · exact .inl ha
    · rw [List.map_append, fst_ones, List.mem_append] at ha
      rcases ha with ha | ha
      · obtain ⟨l, hl, ha⟩ := List.mem_flatten.1 ha
        exact .inr ⟨l, mem_res hl, ha⟩
      · obtain ⟨e', he', ee⟩ := List.mem_map.1 ha
        obtain ⟨x, hx, he'⟩ := List.mem_flatten.1 he'
        obtain ⟨t, _, k⟩ := hrel.exists_left x hx
        rcases k.mem e' he' with ha | ha
        · simp at ha
        · rw [fst_ones] at ha
          obtain ⟨l, hl, ha⟩ := List.mem_flatten.1 ha
          exact .inr ⟨l, mem_res hl, by rw [← ee]; exact ha⟩
  · rw [(h1.trans h4).occurs v hv, List.map_append, fst_ones, occurs_append]
    constructor
    · rintro (e | ⟨z, hz, e⟩ | ⟨z, hz, e⟩)
      · exact .inl e
      · obtain ⟨l, hl, hz⟩ := List.mem_flatten.1 hz
        exact .inr ⟨l, mem_res hl, z, hz, e⟩
      · obtain ⟨e', he', rfl⟩ := List.mem_map.1 hz
        obtain ⟨x, hx, he'⟩ := List.mem_flatten.1 he'
        obtain ⟨t, _, k⟩ := hrel.exists_left x hx
        have := (k.occurs v hv).1 ⟨e'.1, List.mem_map_of_mem he', e⟩
        rw [fst_ones] at this
        rcases this with h | ⟨z, hz, e⟩
        · simp [Occurs] at h
        · obtain ⟨l, hl, hz⟩ := List.mem_flatten.1 hz
          exact .inr ⟨l, mem_res hl, z, hz, e⟩
    · rintro (e | ⟨l, hl, z, hz, e⟩)
      · exact .inl e
      · have := (perm_split hn ht).mem_iff.2 hl
        rcases List.mem_append.1 this with hl | hl
        · exact .inr (.inl ⟨z, List.mem_flatten.2 ⟨l, hl, hz⟩, e⟩)
        · obtain ⟨t, ht', hl⟩ := List.mem_flatMap.1 hl
          obtain ⟨x, hx, k⟩ := hrel.exists_right t ht'
          obtain ⟨z', hz', e'⟩ := (k.occurs v hv).2 (.inr ⟨z, by
            rw [fst_ones]; exact List.mem_flatten.2 ⟨l, hl, hz⟩, e⟩)
          obtain ⟨e2, he2, rfl⟩ := List.mem_map.1 hz'
          exact .inr (.inr ⟨e2.1, List.mem_map_of_mem (List.mem_flatten.2 ⟨x, hx, he2⟩), e'⟩)
  · rw [(h1.trans h4).count v hv, mapCount_append, mapCount_ones_flatten]
    have := sum_related (v := v) (f := fun t => ((addedBy res (t + 1)).map fun l => occurrences E l v).sum) hrel
      (fun t x k => by
        rw [k.count v hv, mapCount_ones_flatten]
        show (mapCount E [] v + _) % _ = _
        rw [show mapCount E [] v = 0 from rfl, Nat.zero_add])
    have hsum := (List.Perm.map (fun l => occurrences E l v) (perm_split hn ht)).sum_nat
    rw [← hsum, List.map_append, List.sum_append, sum_flatMap]
    rw [← Nat.add_assoc, ← Nat.add_assoc, Nat.add_mod, this, ← Nat.add_mod]

/-! ### loops over jobs -/

theorem foreach_jobs {α : Type} {jobs : List (Key × Prog α)} (h : JobsOk jobs) {n : Nat} {σ σ' : Store} {r : Res Unit}
    {log : List (Nat × Nat)} (hok : ∀ j ∈ jobs, ∃ a, (exec1 j.2 (σ j.1)).1 = .ok a)
    (hf : Pool.Foreach (jobs.map Prod.snd) n σ r σ' log) : r = .ok () ∧ σ' = finalOf jobs σ := by
  obtain ⟨is, T, hi, _, _, h3, _, h5, h6⟩ := Pool.foreach_spec hf
  have hlen : T.length = jobs.length := by
    have := length_interleave is (jobs.map Prod.snd, σ)
    rw [hi] at this; simpa using this
  have hst := (interleave_states is (c := (jobs.map Prod.snd, σ)) h.isolated).2
  rw [hi] at hst
  have hr : r = .ok () := by
    refine Classical.byContradiction fun hr => ?_
    obtain ⟨i, q, hq, hfail, hmem, _⟩ := h6 hr
    have hlt : i < jobs.length := by simpa using (h3 i hmem).1
    obtain ⟨p', hp', _, _, hout⟩ := hst i jobs[i].2 (by simp [hlt])
    rw [hq] at hp'
    cases hp'
    have := hout q rfl
    obtain ⟨a, ha⟩ := hok jobs[i] (List.getElem_mem hlt)
    have e : (jobs.map Prod.fst).getD i [] = jobs[i].1 := by simp [List.getD, hlt]
    simp only [e] at this
    rw [this] at ha
    simp only at ha
    rw [ha] at hfail
    cases hfail
  refine ⟨hr, ?_⟩
  have hfin : Finished (interleave is (jobs.map Prod.snd, σ)).1 (jobs.map fun j => (exec1 j.2 (σ j.1)).1) := by
    rw [hi]
    unfold Finished
    apply List.ext_getElem
    · simp [hlen]
    · intro i h1 h2
      have hlt : i < jobs.length := by simpa using h2
      obtain ⟨a, ha⟩ := (h5 hr i (by simpa using hlt)).2
      obtain ⟨p', hp', _, _, hout⟩ := hst i jobs[i].2 (by simp [hlt])
      rw [ha] at hp'
      cases hp'
      have := hout _ rfl
      have e : (jobs.map Prod.fst).getD i [] = jobs[i].1 := by simp [List.getD, hlt]
      simp only [e] at this
      have hTi : T[i]'(by simpa using h1) = .ret (.ok a) := by
        have := List.getElem?_eq_getElem (l := T) (i := i) (by simpa using h1)
        rw [ha] at this; exact (Option.some.inj this).symm
      simp [hTi, outcome, this]
  have := (finished_jobs h hfin).1
  rw [hi] at this
  exact this

/-- a loop whose bodies change nothing: what the calls have returned -/
theorem foreachRes_readOnly {α β : Type} {cs : List β} {f : β → Prog α} {g : β → α} {n : Nat} {σ σ' : Store}
    {r : Res Unit} {log : List (Nat × Nat)} {res : List (Nat × Nat × α)}
    (hro : ∀ c ∈ cs, ReadOnly (f c)) (hg : ∀ c ∈ cs, (run (f c) σ).1 = .ok (g c))
    (hf : Pool.ForeachRes (cs.map f) n σ r σ' log res) :
    r = .ok () ∧ σ' = σ ∧ (∀ t ∈ res, t.1 < max 1 n) ∧ (res.map fun t => t.2.2).Perm (cs.map g) := by
  obtain ⟨is, T, hi, _, _, h3, _, h5, h6, h7, h8⟩ := Pool.foreachRes_spec hf
  have hro' : ∀ p ∈ cs.map f, ReadOnly p := by
    intro p hp
    obtain ⟨c, hc, rfl⟩ := List.mem_map.1 hp
    exact hro c hc
  obtain ⟨hs, hst⟩ := interleave_readOnly is (c := (cs.map f, σ)) hro'
  rw [hi] at hs hst
  have hout : ∀ (i : Nat) c, cs[i]? = some c → ∀ q, T[i]? = some (.ret q) → q = .ok (g c) := by
    intro i c hc q hq
    obtain ⟨p', hp', hrun⟩ := hst i (f c) (by simp [hc])
    rw [hq] at hp'
    cases hp'
    have := hg c (List.mem_of_getElem? hc)
    rw [← hrun] at this
    exact this
  have hr : r = .ok () := by
    refine Classical.byContradiction fun hr => ?_
    obtain ⟨i, q, hq, hfail, hmem, _⟩ := h6 hr
    have hlt : i < cs.length := by simpa using (h3 i hmem).1
    rw [hout i cs[i] (List.getElem?_eq_getElem hlt) q hq] at hfail
    cases hfail
  refine ⟨hr, hs, fun t ht => (h7.2 t ht).1, ?_⟩
  have hlenT : T.length = cs.length := by
    have := length_interleave is (cs.map f, σ)
    rw [hi] at this; simpa using this
  have hitems : (res.map fun t => t.2.1).Perm (List.range cs.length) := by
    refine (List.perm_ext_iff_of_nodup h7.1 List.nodup_range).2 fun i => ?_
    rw [List.mem_range]
    constructor
    · intro hm
      obtain ⟨t, ht, rfl⟩ := List.mem_map.1 hm
      have := (h7.2 t ht).2
      have := (List.getElem?_eq_some_iff.1 this).1
      omega
    · intro hlt
      exact h8 hr i (by simpa using hlt)
  have hval : (res.map fun t => some t.2.2) = (res.map fun t => t.2.1).map fun i => (cs[i]?).map g := by
    rw [List.map_map]
    apply List.map_congr_left
    intro t ht
    have hT := (h7.2 t ht).2
    have hlt := (List.getElem?_eq_some_iff.1 hT).1
    have hc := List.getElem?_eq_getElem (l := cs) (i := t.2.1) (by omega)
    have := hout t.2.1 _ hc _ hT
    simp only [Function.comp_apply, hc, Option.map_some]
    rw [Res.ok.inj this]
  have hp := hitems.map fun i => (cs[i]?).map g
  rw [← hval] at hp
  have : (List.range cs.length).map (fun i => (cs[i]?).map g) = (cs.map g).map some := by
    apply List.ext_getElem?
    intro i
    by_cases hi : i < cs.length
    · rw [List.getElem?_map, List.getElem?_range hi]; simp [hi]
    · rw [List.getElem?_eq_none (by simp; omega), List.getElem?_eq_none (by simp; omega)]
  rw [this] at hp
  have hp2 := hp.filterMap id
  simpa [List.filterMap_map, Function.comp_def] using hp2

end Z5
