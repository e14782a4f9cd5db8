import Verif.Spec.FileStore
import Verif.Proofs.Prog

/-!
# Store programs on the file system
-/

namespace Z5

/-! ### Names in keys -/

theorem keyNames_ne_nil : ∀ (k : Key) (acc : List Char), keyNames k acc ≠ []
  | [], _ => by simp [keyNames]
  | c :: cs, acc => by
    unfold keyNames
    split
    · simp
    · exact keyNames_ne_nil cs _

theorem keyNames_length : ∀ (k : Key) (acc : List Char), (keyNames k acc).length = k.count '/' + 1
  | [], _ => rfl
  | c :: cs, acc => by
    unfold keyNames
    split
    · next h => subst h; simp [keyNames_length cs]
    · next h => rw [keyNames_length cs, List.count_cons_of_ne h]

/-- the key with these names -/
def nameKey : Path → Key
  | [] => []
  | [n] => n.toList
  | n :: m :: ns => n.toList ++ '/' :: nameKey (m :: ns)

theorem nameKey_cons {ns : Path} (h : ns ≠ []) (n : String) : nameKey (n :: ns) = n.toList ++ '/' :: nameKey ns := by
  cases ns with
  | nil => exact absurd rfl h
  | cons m ms => rfl

theorem nameKey_keyNames : ∀ (k : Key) (acc : List Char), nameKey (keyNames k acc) = acc.reverse ++ k
  | [], acc => by simp [keyNames, nameKey]
  | c :: cs, acc => by
    unfold keyNames
    split
    · next h => subst h; rw [nameKey_cons (keyNames_ne_nil _ _), nameKey_keyNames cs]; simp
    · next h => rw [nameKey_keyNames cs]; simp

theorem keyNames_inj {k k' : Key} (h : keyNames k [] = keyNames k' []) : k = k' := by
  have := congrArg nameKey h
  simpa [nameKey_keyNames] using this

theorem chunkFile_inj {p : Path} {k k' : Key} (h : chunkFile p k = chunkFile p k') : k = k' :=
  keyNames_inj (List.append_cancel_left h)

theorem chunkFile_dropLast (p : Path) (k : Key) : (chunkFile p k).dropLast = p ++ (keyNames k []).dropLast := by
  unfold chunkFile
  rw [List.dropLast_append_of_ne_nil (keyNames_ne_nil _ _)]

/-- no chunk is on the way to another -/
theorem chunkFile_prefix {p : Path} {k k' : Key} (hl : k.count '/' = k'.count '/')
    (h : chunkFile p k <+: chunkFile p k') : k = k' := by
  refine chunkFile_inj (p := p) (h.eq_of_length ?_)
  simp [chunkFile, keyNames_length, hl]

theorem chunkFile_dropLast_lt (p : Path) (k : Key) : (chunkFile p k).dropLast ≠ chunkFile p k := by
  intro h
  have h1 := congrArg List.length h
  have : 0 < (chunkFile p k).length := by
    rw [chunkFile, List.length_append, keyNames_length]; omega
  rw [List.length_dropLast] at h1
  omega

/-! ### The simulation -/

theorem chunks_eq (σ : Fs) (p : Path) (k : Key) : σ.chunks p k = contentOf (σ (chunkFile p k)) := by
  unfold Fs.chunks contentOf chunkFile
  rfl

theorem set_same (σ : Fs) (p : Path) (e : Option Entry) : σ.set p e p = e := by simp [Fs.set]
theorem set_other (σ : Fs) {p q : Path} (e : Option Entry) (h : q ≠ p) : σ.set p e q = σ q := by simp [Fs.set, h]

theorem contentOf_map (o : Option Bytes) : contentOf (o.map .file) = o := by cases o <;> rfl
theorem isForeign_map (o : Option Bytes) : isForeign (o.map .file) = false := by cases o <;> rfl

theorem chunks_set (σ : Fs) (p : Path) (k : Key) (o : Option Bytes) :
    (σ.set (chunkFile p k) (o.map .file)).chunks p = (σ.chunks p).upd k o := by
  funext k'
  rw [chunks_eq]
  unfold Store.upd
  split
  · next h => subst h; rw [set_same, contentOf_map]
  · next h => rw [set_other _ _ (fun e => h (chunkFile_inj e)), chunks_eq]

/-- directories stay -/
def DirsKept (σ σ' : Fs) : Prop := ∀ q, σ q = some .dir → σ' q = some .dir

theorem DirsKept.refl (σ : Fs) : DirsKept σ σ := fun _ h => h
theorem DirsKept.trans {a b c : Fs} (h : DirsKept a b) (h' : DirsKept b c) : DirsKept a c := fun q hq => h' q (h q hq)

variable {α : Type} {p : Path} {nested : Bool} {K : Key → Prop} {σ : Fs}

theorem OnlyChunks.refl (σ : Fs) : OnlyChunks p K σ σ := fun _ => .inr (.inl rfl)

theorem OnlyChunks.trans {a b c : Fs} (h : OnlyChunks p K a b) (h' : OnlyChunks p K b c)
    : OnlyChunks p K a c := by
  intro q
  rcases h q with h1 | h1 | ⟨h1, h2, h3⟩
  · exact .inl h1
  · rcases h' q with g1 | g1 | ⟨g1, g2⟩
    · exact .inl g1
    · exact .inr (.inl (g1.trans h1))
    · exact .inr (.inr ⟨h1 ▸ g1, g2⟩)
  · rcases h' q with g1 | g1 | ⟨g1, _⟩
    · exact .inl g1
    · exact .inr (.inr ⟨h1, g1.trans h2, h3⟩)
    · rw [h2] at g1; cases g1

theorem not_dir {e : Option Entry} (h : isForeign e = false) : isDirectory e = false := by
  rcases e with _ | (_ | _ | _) <;> simp_all [isForeign, isDirectory]

/-- the state after a chunk was written or removed -/
theorem Tidy.set (hK : KeysFit nested K) (h : Tidy p K σ) {k : Key} (hk : K k) (o : Option Bytes) :
    Tidy p K (σ.set (chunkFile p k) (o.map .file)) ∧ DirsKept σ (σ.set (chunkFile p k) (o.map .file)) ∧
      OnlyChunks p K σ (σ.set (chunkFile p k) (o.map .file)) := by
  have hp : ∀ q, q <+: p → q ≠ chunkFile p k := by
    intro q hq e
    have h1 := hq.length_le
    rw [e, chunkFile, List.length_append, keyNames_length] at h1
    omega
  refine ⟨⟨?_, ?_, ?_⟩, ?_, ?_⟩
  · intro q hq
    rw [set_other _ _ (hp q hq)]
    exact h.above q hq
  · intro k' hk'
    by_cases e : k' = k
    · subst e; rw [set_same, isForeign_map]
    · rw [set_other _ _ (fun c => e (chunkFile_inj c))]
      exact h.files k' hk'
  · intro k' hk' q h1 h2 h3
    by_cases e : q = chunkFile p k
    · exfalso
      subst e
      have := chunkFile_prefix (hK.level k k' hk hk') h2
      exact h3 (by rw [this])
    · rw [set_other _ _ e]
      exact h.dirs k' hk' q h1 h2 h3
  · intro q hq
    by_cases e : q = chunkFile p k
    · subst e
      have := not_dir (h.files k hk)
      rw [hq] at this
      cases this
    · rw [set_other _ _ e]; exact hq
  · intro q
    by_cases e : q = chunkFile p k
    · exact .inl ⟨k, hk, e⟩
    · exact .inr (.inl (set_other _ _ e))

/-- the state after a directory on the way to a chunk was made -/
theorem Tidy.mkdir (hK : KeysFit nested K) (h : Tidy p K σ) {k : Key} (hk : K k) {q : Path} (hq : q <+: (chunkFile p k).dropLast)
    (hd : q = [] ∨ σ q.dropLast = some .dir) :
    Tidy p K (σ.mkdir q) ∧ DirsKept σ (σ.mkdir q) ∧ OnlyChunks p K σ (σ.mkdir q) ∧ (σ.mkdir q).chunks p = σ.chunks p ∧
      (σ.mkdir q) q = some .dir := by
  by_cases hqp : q <+: p
  · have e : σ.mkdir q = σ := by
      unfold Fs.mkdir
      rw [h.above q hqp]
      rfl
    rw [e]
    exact ⟨h, .refl _, .refl _, rfl, h.above q hqp⟩
  · have hq' : q <+: chunkFile p k := hq.trans (List.dropLast_prefix _)
    have hpq : p <+: q := by
      rcases List.prefix_or_prefix_of_prefix hq' (List.prefix_append p (keyNames k [])) with h1 | h1
      · exact absurd h1 hqp
      · exact h1
    have hne : q ≠ chunkFile p k := by
      intro e
      have h1 := hq.length_le
      rw [e, List.length_dropLast] at h1
      have : 0 < (chunkFile p k).length := by
        rw [chunkFile, List.length_append, keyNames_length]; omega
      omega
    have ho := h.dirs k hk q hpq hq' hne
    have hnil : q ≠ [] := fun e => hqp (e ▸ List.nil_prefix)
    have hd : σ q.dropLast = some .dir := hd.resolve_left hnil
    cases hs : σ q with
    | some e =>
      have e1 : σ.mkdir q = σ := by
        unfold Fs.mkdir
        rw [hs]
        rfl
      rw [e1]
      refine ⟨h, .refl _, .refl _, rfl, ?_⟩
      rw [hs] at ho ⊢
      cases e <;> simp_all [isOther]
    | none =>
      have e1 : σ.mkdir q = σ.set q (some .dir) := by
        unfold Fs.mkdir
        rw [hs, hd]
        rfl
      have hkey : ∀ k', K k' → chunkFile p k' ≠ q := by
        intro k' hk' e
        have := chunkFile_prefix (hK.level k' k hk' hk) (e ▸ hq')
        subst this
        exact hne e.symm
      rw [e1]
      refine ⟨⟨?_, ?_, ?_⟩, ?_, ?_, ?_, set_same _ _ _⟩
      · intro r hr
        rw [set_other _ _ (fun e => hqp (by rw [← e]; exact hr))]
        exact h.above r hr
      · intro k' hk'
        rw [set_other _ _ (hkey k' hk')]
        exact h.files k' hk'
      · intro k' hk' r h1 h2 h3
        by_cases e : r = q
        · subst e; rw [set_same]; rfl
        · rw [set_other _ _ e]
          exact h.dirs k' hk' r h1 h2 h3
      · intro r hr
        by_cases e : r = q
        · subst e; exact set_same _ _ _
        · rw [set_other _ _ e]; exact hr
      · intro r
        by_cases e : r = q
        · subst e
          exact .inr (.inr ⟨hs, set_same _ _ _, k, hk, hpq, hq', fun e => hqp (by rw [e]; exact List.prefix_refl _)⟩)
        · exact .inr (.inl (set_other _ _ e))
      · funext k'
        rw [chunks_eq, chunks_eq]
        by_cases e : chunkFile p k' = q
        · rw [e, set_same, hs]; rfl
        · rw [set_other _ _ e]

/-- A program on the file system stands for a store program: they are the same, or the directories for the next
    action are being made. -/
inductive Sim (p : Path) (nested : Bool) (σ : Fs) : FsProg α → Prog α → Prop
  | same (s : Prog α) : Sim p nested σ (s.onFiles p nested) s
  | ready {k f c} : (f none).isSome = true → σ (chunkFile p k).dropLast = some .dir →
      Sim p nested σ (openForWriting (chunkFile p k) f fun v => (c v).onFiles p nested) (.act k f c)
  | making {k f c} (n : Nat) : (f none).isSome = true → (∀ m, m < n → σ ((chunkFile p k).dropLast.take m) = some .dir) →
      n ≤ (chunkFile p k).dropLast.length →
      Sim p nested σ (mkdirs ((pathsTo (chunkFile p k).dropLast).drop n)
        (openForWriting (chunkFile p k) f fun v => (c v).onFiles p nested)) (.act k f c)

theorem Sim.mono {σ' : Fs} {t : FsProg α} {s : Prog α} (hd : DirsKept σ σ') (h : Sim p nested σ t s) : Sim p nested σ' t s := by
  cases h with
  | same => exact .same _
  | ready h1 h2 => exact .ready h1 (hd _ h2)
  | making n h1 h2 h3 => exact .making n h1 (fun m hm => hd _ (h2 m hm)) h3

theorem pathsTo_drop {q : Path} {n : Nat} (h : n ≤ q.length) : (pathsTo q).drop n = q.take n :: (pathsTo q).drop (n + 1) := by
  have hl : n < (pathsTo q).length := by simp [pathsTo]; omega
  rw [List.drop_eq_getElem_cons hl]
  congr 1
  simp [pathsTo]

/-- One action of a program on the file system: an action of the store program, or none. -/
theorem sim_act (hK : KeysFit nested K) (h : Tidy p K σ) {t : FsProg α} {s : Prog α} (hs : Sim p nested σ t s) (hw : s.Within K)
    {F : Fs → Fs} {C : Fs → FsProg α} (ht : t = .act F C) :
    Tidy p K (F σ) ∧ DirsKept σ (F σ) ∧ OnlyChunks p K σ (F σ) ∧
      (((F σ).chunks p = σ.chunks p ∧ Sim p nested (F σ) (C σ) s ∧
          (F σ = σ ∨ ∃ k f c, s = .act k f c ∧ (f none).isSome = true)) ∨
       ∃ k f c, s = .act k f c ∧ (F σ).chunks p = (σ.chunks p).upd k (f (σ.chunks p k)) ∧
         Sim p nested (F σ) (C σ) (c (σ.chunks p k)) ∧ ((f none).isSome = true → σ (chunkFile p k).dropLast = some .dir) ∧
         F σ = σ.set (chunkFile p k) ((f (contentOf (σ (chunkFile p k)))).map .file)) := by
  have hopen : ∀ {k : Key} {f : Option Bytes → Option Bytes} {c : Option Bytes → Prog α}, K k → σ (chunkFile p k).dropLast = some .dir →
      (openForWriting (chunkFile p k) f fun v => (c v).onFiles p nested) = .act F C → s = .act k f c →
      Tidy p K (F σ) ∧ DirsKept σ (F σ) ∧ OnlyChunks p K σ (F σ) ∧
      (((F σ).chunks p = σ.chunks p ∧ Sim p nested (F σ) (C σ) s ∧
          (F σ = σ ∨ ∃ k f c, s = .act k f c ∧ (f none).isSome = true)) ∨
       ∃ k f c, s = .act k f c ∧ (F σ).chunks p = (σ.chunks p).upd k (f (σ.chunks p k)) ∧
         Sim p nested (F σ) (C σ) (c (σ.chunks p k)) ∧ ((f none).isSome = true → σ (chunkFile p k).dropLast = some .dir) ∧
         F σ = σ.set (chunkFile p k) ((f (contentOf (σ (chunkFile p k)))).map .file)) := by
    intro k f c hk hd ho hs
    unfold openForWriting at ho
    injection ho with hF hC
    have hc : (isDirectory (σ (chunkFile p k).dropLast) && !isDirectory (σ (chunkFile p k))) = true := by
      rw [hd, not_dir (h.files k hk)]; rfl
    have e1 : F σ = σ.set (chunkFile p k) ((f (contentOf (σ (chunkFile p k)))).map .file) := by
      rw [← hF]
      simp only [hc, if_true]
    have e2 : C σ = (c (contentOf (σ (chunkFile p k)))).onFiles p nested := by
      rw [← hC]
      simp only [hc, if_true]
    obtain ⟨g1, g2, g3⟩ := h.set hK hk (f (contentOf (σ (chunkFile p k))))
    rw [e1, e2]
    refine ⟨g1, g2, g3, .inr ⟨k, f, c, hs, ?_, ?_, fun _ => hd, rfl⟩⟩
    · rw [chunks_set, chunks_eq]
    · rw [chunks_eq]
      exact .same _
  cases hs with
  | same s =>
    cases s with
    | ret r => simp only [Prog.onFiles] at ht; cases ht
    | act k f c =>
      have hk := hw.1
      by_cases hf : (f none).isSome = true
      · simp only [Prog.onFiles, hf, if_true] at ht
        by_cases hn : nested = true
        · rw [if_pos hn] at ht
          injection ht with hF hC
          subst hF
          refine ⟨h, .refl _, .refl _, .inl ⟨rfl, ?_, .inl rfl⟩⟩
          subst hC
          clear hopen
          show Sim p nested σ (if (σ (chunkFile p k).dropLast).isSome = true then _ else _) _
          cases hd : σ (chunkFile p k).dropLast with
          | none =>
            rw [if_neg (by simp)]
            exact .making 0 hf (fun m hm => absurd hm (by omega)) (by omega)
          | some e =>
            rw [if_pos (by rfl)]
            refine .ready hf ?_
            show σ _ = _
            have hx : isOther (σ (chunkFile p k).dropLast) = false := by
              refine h.dirs k hk _ ?_ (List.dropLast_prefix _) (chunkFile_dropLast_lt p k)
              rw [chunkFile_dropLast]
              exact List.prefix_append _ _
            rw [hd] at hx ⊢
            cases e <;> first | rfl | cases hx
        · rw [if_neg hn] at ht
          refine hopen hk ?_ ht rfl
          have h0 := hK.flat (by simpa using hn) k hk
          rw [chunkFile_dropLast]
          have hl := keyNames_length k []
          rw [h0] at hl
          have : (keyNames k []).dropLast = [] := by
            apply List.eq_nil_of_length_eq_zero
            rw [List.length_dropLast, hl]
          rw [this, List.append_nil]
          exact h.above p (List.prefix_refl p)
      · unfold Prog.onFiles at ht
        rw [if_neg hf] at ht
        injection ht with hF hC
        have hfo := h.files k hk
        have e1 : F σ = σ.set (chunkFile p k) ((f (contentOf (σ (chunkFile p k)))).map .file) := by
          rw [← hF]
          simp only [hfo, Bool.false_eq_true, if_false]
        have e2 : C σ = (c (contentOf (σ (chunkFile p k)))).onFiles p nested := by
          rw [← hC]
          simp only [hfo, Bool.false_eq_true, if_false]
        obtain ⟨g1, g2, g3⟩ := h.set hK hk (f (contentOf (σ (chunkFile p k))))
        rw [e1, e2]
        refine ⟨g1, g2, g3, .inr ⟨k, f, c, rfl, ?_, ?_, fun e => absurd e hf, rfl⟩⟩
        · rw [chunks_set, chunks_eq]
        · rw [chunks_eq]
          exact .same _
  | ready hf hd => exact hopen hw.1 hd ht rfl
  | @making k f c n hf hm hn =>
    rw [pathsTo_drop hn, mkdirs] at ht
    injection ht with hF hC
    subst hF hC
    obtain ⟨g1, g2, g3, g4, g5⟩ := h.mkdir hK hw.1 (q := (chunkFile p k).dropLast.take n) (List.take_prefix _ _) (by
      by_cases e : n = 0
      · subst e; exact .inl (by simp)
      · right
        have : ((chunkFile p k).dropLast.take n).dropLast = (chunkFile p k).dropLast.take (n - 1) := by
          rw [List.dropLast_eq_take, List.take_take, List.length_take]
          congr 1
          omega
        rw [this]
        exact hm _ (by omega))
    refine ⟨g1, g2, g3, .inl ⟨g4, ?_, .inr ⟨k, f, c, rfl, hf⟩⟩⟩
    by_cases hl : n = (chunkFile p k).dropLast.length
    · have hnil : (pathsTo (chunkFile p k).dropLast).drop (n + 1) = [] := by
        apply List.drop_eq_nil_of_le
        simp only [pathsTo, List.length_map, List.length_range]
        omega
      rw [hnil]
      refine .ready hf ?_
      show (σ.mkdir _) _ = _
      rw [hl, List.take_length] at g5 ⊢
      exact g5
    · refine .making (n + 1) hf ?_ (by omega)
      intro m hm'
      by_cases e : m = n
      · subst e; exact g5
      · exact g2 _ (hm m (by omega))

/-- The states of the tasks -/
structure SimAll (p : Path) (nested : Bool) (K : Key → Prop) (c : List (FsProg α) × Fs) (d : List (Prog α) × Store) : Prop where
  length : c.1.length = d.1.length
  each : ∀ (i : Nat) t s, c.1[i]? = some t → d.1[i]? = some s → Sim p nested c.2 t s
  within : ∀ s ∈ d.1, s.Within K
  tidy : Tidy p K c.2
  chunks : c.2.chunks p = d.2

theorem simAll_step (hK : KeysFit nested K) {c : List (FsProg α) × Fs} {d : List (Prog α) × Store} (h : SimAll p nested K c d) (i : Nat) :
    OnlyChunks p K c.2 (FsProg.step i c).2 ∧
      (SimAll p nested K (FsProg.step i c) d ∨ SimAll p nested K (FsProg.step i c) (Prog.step i d)) := by
  obtain ⟨ts, σ⟩ := c
  obtain ⟨ss, τ⟩ := d
  cases hi : ts[i]? with
  | none =>
    have : FsProg.step i (ts, σ) = (ts, σ) := by simp [FsProg.step, hi]
    rw [this]
    exact ⟨.refl _, .inl h⟩
  | some t =>
    have hlt : i < ts.length := (List.getElem?_eq_some_iff.1 hi).1
    have hl := h.length
    simp only at hl
    obtain ⟨s, hsi⟩ : ∃ s, ss[i]? = some s := ⟨ss[i]'(hl ▸ hlt), List.getElem?_eq_getElem _⟩
    cases t with
    | ret r =>
      have : FsProg.step i (ts, σ) = (ts, σ) := by simp [FsProg.step, hi]
      rw [this]
      exact ⟨.refl _, .inl h⟩
    | act F C =>
      have hstep : FsProg.step i (ts, σ) = (ts.set i (C σ), F σ) := by simp [FsProg.step, hi]
      rw [hstep]
      have hmem : s ∈ ss := List.mem_of_getElem? hsi
      obtain ⟨g1, g2, g3, g4⟩ := sim_act hK h.tidy (h.each i _ s hi hsi) (h.within s hmem) rfl
      refine ⟨g3, ?_⟩
      have hch := h.chunks
      simp only at hch g1 g2 g3 g4
      rcases g4 with ⟨g4, g5, _⟩ | ⟨k, f, cont, rfl, g4, g5, _⟩
      · left
        refine ⟨by simpa using hl, ?_, h.within, g1, g4.trans hch⟩
        intro j t' s' hj hj'
        by_cases e : j = i
        · subst e
          rw [List.getElem?_set_self hlt] at hj
          cases hj
          rw [hsi] at hj'
          cases hj'
          exact g5
        · rw [List.getElem?_set_ne (fun c => e c.symm)] at hj
          exact (h.each j t' s' hj hj').mono g2
      · right
        have hst : Prog.step i (ss, τ) = (ss.set i (cont (τ k)), τ.upd k (f (τ k))) := by simp [Prog.step, hsi]
        rw [hst, ← hch]
        refine ⟨by simpa using hl, ?_, ?_, g1, g4⟩
        · intro j t' s' hj hj'
          by_cases e : j = i
          · subst e
            rw [List.getElem?_set_self hlt] at hj
            cases hj
            rw [List.getElem?_set_self (hl ▸ hlt)] at hj'
            cases hj'
            exact g5
          · simp only at hj hj'
            rw [List.getElem?_set_ne (fun c => e c.symm)] at hj hj'
            exact (h.each j t' s' hj hj').mono g2
        · intro s' hs'
          rcases List.mem_or_eq_of_mem_set hs' with h1 | h1
          · exact h.within s' h1
          · subst h1
            exact (h.within _ hmem).2 _

theorem simAll_interleave (hK : KeysFit nested K) : ∀ (is : List Nat) {c : List (FsProg α) × Fs} {d : List (Prog α) × Store},
    SimAll p nested K c d → OnlyChunks p K c.2 (FsProg.interleave is c).2 ∧
      ∃ js, SimAll p nested K (FsProg.interleave is c) (Prog.interleave js d)
  | [], _, _, h => ⟨.refl _, [], h⟩
  | i :: is, c, d, h => by
    obtain ⟨h1, h2⟩ := simAll_step hK h i
    rcases h2 with h2 | h2
    · obtain ⟨g1, js, g2⟩ := simAll_interleave hK is h2
      exact ⟨h1.trans g1, js, g2⟩
    · obtain ⟨g1, js, g2⟩ := simAll_interleave hK is h2
      exact ⟨h1.trans g1, i :: js, g2⟩

theorem Sim.ret {t : FsProg α} {s : Prog α} (h : Sim p nested σ t s) {r : Res α} (ht : t = .ret r) : s = .ret r := by
  cases h with
  | same s =>
    cases s with
    | ret r' => simp only [Prog.onFiles] at ht; cases ht; rfl
    | act k f c =>
      exfalso
      simp only [Prog.onFiles] at ht
      split at ht
      · split at ht <;> simp [openForWriting] at ht
      · cases ht
  | ready => simp [openForWriting] at ht
  | making n h1 h2 h3 =>
    rw [pathsTo_drop h3, mkdirs] at ht
    cases ht

/-- Every execution on the file system, with its directories, is one of the store programs: with the same outcomes and the
    same chunks; what changes are chunks in `K` and directories on the way to them. -/
theorem onFiles_interleave (hK : KeysFit nested K) (h : Tidy p K σ) {ts : List (Prog α)} (hw : ∀ s ∈ ts, s.Within K) (is : List Nat)
    {c : List (FsProg α) × Fs} (hc : FsProg.interleave is (ts.map (·.onFiles p nested), σ) = c) :
    Tidy p K c.2 ∧ OnlyChunks p K σ c.2 ∧ ∃ js, (Prog.interleave js (ts, σ.chunks p)).2 = c.2.chunks p ∧
      ∀ rs, FsProg.Finished c.1 rs → Prog.Finished (Prog.interleave js (ts, σ.chunks p)).1 rs := by
  have h0 : SimAll p nested K (ts.map (·.onFiles p nested), σ) (ts, σ.chunks p) := by
    refine ⟨by simp, ?_, hw, h, rfl⟩
    intro i t s h1 h2
    simp only at h2
    simp only [List.getElem?_map, h2, Option.map_some, Option.some.injEq] at h1
    subst h1
    exact .same s
  obtain ⟨g1, js, g2⟩ := simAll_interleave hK is h0
  rw [hc] at g1 g2
  refine ⟨g2.tidy, g1, js, g2.chunks.symm, ?_⟩
  intro rs hf
  have hlen : c.1.length = rs.length := by simpa using congrArg List.length hf
  refine List.ext_getElem? fun i => ?_
  rw [List.getElem?_map, List.getElem?_map]
  by_cases hi : i < c.1.length
  · obtain ⟨t, ht⟩ : ∃ t, c.1[i]? = some t := ⟨_, List.getElem?_eq_getElem hi⟩
    obtain ⟨s, hs⟩ : ∃ s, (Prog.interleave js (ts, σ.chunks p)).1[i]? = some s :=
      ⟨_, List.getElem?_eq_getElem (g2.length ▸ hi)⟩
    obtain ⟨r, hr⟩ : ∃ r, rs[i]? = some r := ⟨_, List.getElem?_eq_getElem (hlen ▸ hi)⟩
    have h1 := congrArg (·[i]?) hf
    simp only [List.getElem?_map, ht, hr, Option.map_some, Option.some.injEq] at h1
    have h2 : t = .ret r := by
      cases t with
      | ret r' => simp only [FsProg.outcome, Option.some.injEq] at h1; rw [h1]
      | act F C => simp [FsProg.outcome] at h1
    have h3 := (g2.each i t s ht hs).ret h2
    rw [hs, hr, h3]
    rfl
  · rw [List.getElem?_eq_none (by rw [← g2.length]; omega), List.getElem?_eq_none (by omega)]
    rfl

/-! ### Some schedule finishes -/

namespace FsProg

variable {α : Type}

theorem length_step (i : Nat) (c : List (FsProg α) × Fs) : (step i c).1.length = c.1.length := by
  unfold step; split <;> simp

theorem length_interleave : ∀ (is : List Nat) (c : List (FsProg α) × Fs), (interleave is c).1.length = c.1.length
  | [], _ => rfl
  | i :: is, c => by rw [interleave, length_interleave is, length_step]

theorem interleave_append : ∀ (is js : List Nat) (c : List (FsProg α) × Fs),
    interleave (is ++ js) c = interleave js (interleave is c)
  | [], _, _ => rfl
  | i :: is, js, c => by rw [List.cons_append, interleave, interleave, interleave_append is js]

theorem finish_task (i : Nat) : ∀ (p : FsProg α) (c : List (FsProg α) × Fs), c.1[i]? = some p →
    ∃ n r, (interleave (List.replicate n i) c).1 = c.1.set i (.ret r)
  | .ret r, c, h => ⟨0, r, by
      rw [List.replicate_zero, interleave]
      rcases List.getElem?_eq_some_iff.1 h with ⟨hlt, he⟩
      rw [← he, List.set_getElem_self]⟩
  | .act f cont, c, h => by
    have hlt : i < c.1.length := by
      rcases List.getElem?_eq_some_iff.1 h with ⟨h, _⟩; exact h
    have hs : step i c = (c.1.set i (cont c.2), f c.2) := by
      unfold step; rw [h]
    obtain ⟨n, r, hn⟩ := finish_task i (cont c.2) (step i c)
      (by rw [hs]; exact List.getElem?_set_self hlt)
    refine ⟨n + 1, r, ?_⟩
    rw [List.replicate_succ, interleave, hn, hs]
    simp only [List.set_set]

theorem finish_upto (c : List (FsProg α) × Fs) : ∀ n, n ≤ c.1.length →
    ∃ is, ∀ j, j < n → ∃ r, (interleave is c).1[j]? = some (.ret r)
  | 0, _ => ⟨[], fun j hj => absurd hj (Nat.not_lt_zero j)⟩
  | n + 1, hn => by
    obtain ⟨is, his⟩ := finish_upto c n (by omega)
    have hlen := length_interleave is c
    have hlt : n < (interleave is c).1.length := by omega
    obtain ⟨m, r, hm⟩ := finish_task n _ _ (List.getElem?_eq_getElem hlt)
    refine ⟨is ++ List.replicate m n, ?_⟩
    intro j hj
    rw [interleave_append, hm]
    by_cases hjn : n = j
    · subst hjn
      exact ⟨r, List.getElem?_set_self hlt⟩
    · rw [List.getElem?_set_ne hjn]
      exact his j (by omega)

theorem exists_finished (c : List (FsProg α) × Fs) : ∃ is rs, Finished (interleave is c).1 rs := by
  obtain ⟨is, his⟩ := finish_upto c c.1.length (Nat.le_refl _)
  refine ⟨is, (interleave is c).1.map fun p => (outcome p).getD .ub, ?_⟩
  unfold Finished
  rw [List.map_map]
  apply List.map_congr_left
  intro p hp
  obtain ⟨j, hj, rfl⟩ := List.getElem_of_mem hp
  obtain ⟨r, hr⟩ := his j (by rw [← length_interleave is c]; exact hj)
  rw [List.getElem?_eq_getElem hj, Option.some.injEq] at hr
  rw [hr]; rfl

end FsProg

end Z5
