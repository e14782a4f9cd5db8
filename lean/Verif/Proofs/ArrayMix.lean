import Verif.Proofs.Foreign
import Verif.Proofs.ShardChunk

/-!
# Arrays of two states of their files (for C91)
-/

namespace Z5
open Spec

variable {E : Elem} {shape chunk : List Nat} {C : Codec} {fill : E.T}

/-- the first of two, or the second -/
def pick {α : Type} (sel : List Nat → Bool) (c : List Nat) (a b : α) : α := if sel c = true then a else b

theorem zarrChunk_congr {P Q : List Nat → E.T} {c : List Nat} {v : Option Bytes}
    (h : match v with
      | none => ∀ i, InBox i chunk → P (addV (mulV c chunk) i) = fill
      | some b => IsZarrChunk E chunk C P c b)
    (e : ∀ i, InBox i chunk → Q (addV (mulV c chunk) i) = P (addV (mulV c chunk) i)) :
    match (generalizing := false) v with
      | none => ∀ i, InBox i chunk → Q (addV (mulV c chunk) i) = fill
      | some b => IsZarrChunk E chunk C Q c b := by
  cases v with
  | none => exact fun i hi => (e i hi).trans (h i hi)
  | some y =>
    simp only [IsZarrChunk] at h ⊢
    rw [cOrder_eq] at h ⊢
    have : ∀ l : List (List Nat), (∀ i ∈ l, InBox i chunk) → l.flatMap (fun i => E.toBytes (Q (addV (mulV c chunk) i))) =
        l.flatMap fun i => E.toBytes (P (addV (mulV c chunk) i)) := by
      intro l
      induction l with
      | nil => exact fun _ => rfl
      | cons i l ih =>
        intro hl
        rw [List.flatMap_cons, List.flatMap_cons, ih fun j hj => hl j (List.mem_cons_of_mem _ hj), e i (hl i (List.mem_cons_self ..))]
    rw [this _ fun i hi => mem_boxList.1 hi]
    exact h

theorem ZarrChunks.mix {s₀ s₁ s : List Nat → Option Bytes} {A₀ A₁ : List Nat → E.T} (sel : List Nat → Bool)
    (h₀ : ZarrChunks E shape chunk C fill s₀ A₀) (h₁ : ZarrChunks E shape chunk C fill s₁ A₁)
    (hs : ∀ c, InGrid shape chunk c → s c = pick sel c (s₀ c) (s₁ c)) :
    ZarrChunks E shape chunk C fill s fun x => pick sel (divV x chunk) (A₀ x) (A₁ x) := by
  obtain ⟨P₀, p₀, q₀⟩ := h₀
  obtain ⟨P₁, p₁, q₁⟩ := h₁
  refine ⟨fun x => pick sel (divV x chunk) (P₀ x) (P₁ x), fun x hx => by simp only [p₀ x hx, p₁ x hx], fun c hc => ?_⟩
  have hdiv : ∀ i, InBox i chunk → divV (addV (mulV c chunk) i) chunk = c :=
    fun i hi => (divmod_mk (All₃.length_eq hc).2.symm hi).1
  rw [hs c hc]
  by_cases hsel : sel c = true
  · rw [show pick sel c (s₀ c) (s₁ c) = s₀ c by rw [pick, if_pos hsel]]
    exact zarrChunk_congr (Q := fun x => pick sel (divV x chunk) (P₀ x) (P₁ x)) (q₀ c hc) fun i hi => by simp only [hdiv i hi, pick, if_pos hsel]
  · rw [show pick sel c (s₀ c) (s₁ c) = s₁ c by rw [pick, if_neg hsel]]
    exact zarrChunk_congr (Q := fun x => pick sel (divV x chunk) (P₀ x) (P₁ x)) (q₁ c hc) fun i hi => by simp only [hdiv i hi, pick, if_neg hsel]

theorem inBox_of_inChunk : ∀ {shape S s x : List Nat}, InChunk shape S s x → InBox x shape
  | [], [], [], [], _ => trivial
  | _ :: _, _ :: _, _ :: _, _ :: _, h => ⟨h.1.2.2, inBox_of_inChunk h.2⟩

theorem inChunk_unique : ∀ {shape S s t x : List Nat}, InChunk shape S s x → InChunk shape S t x → s = t
  | [], [], [], [], [], _, _ => rfl
  | _ :: _, b :: _, s :: _, t :: _, x :: _, h, g => by
    have h1 : s * b ≤ x ∧ x < (s + 1) * b := ⟨h.1.1, h.1.2.1⟩
    have g1 : t * b ≤ x ∧ x < (t + 1) * b := ⟨g.1.1, g.1.2.1⟩
    have hb : 0 < b := by
      rcases Nat.eq_zero_or_pos b with rfl | h
      · simp at h1
      · exact h
    rw [inChunk_unique h.2 g.2, ← (div_eq_iff hb).2 h1, (div_eq_iff hb).2 g1]

/-- Every file is the one of the first state or the one of the second. -/
theorem IsZarrArray.mix {name : List Nat → Key} {σ₀ σ₁ σ : Store} {A₀ A₁ : List Nat → E.T}
    (hd : All₂ (fun s b => 0 < b ∧ s + b ≤ 2 ^ 64) shape chunk)
    (h₀ : IsZarrArray E shape chunk name C fill σ₀ A₀) (h₁ : IsZarrArray E shape chunk name C fill σ₁ A₁)
    (hσ : ∀ c, InGrid shape chunk c → σ (name c) = σ₀ (name c) ∨ σ (name c) = σ₁ (name c)) :
    ∃ A, IsZarrArray E shape chunk name C fill σ A ∧ ∀ c, (∀ x, InChunk shape chunk c x → A x = A₀ x) ∨
      (σ (name c) ≠ σ₀ (name c) ∧ ∀ x, InChunk shape chunk c x → A x = A₁ x) := by
  obtain ⟨sel, hsel⟩ : ∃ sel : List Nat → Bool, ∀ c, sel c = true ↔ σ (name c) = σ₀ (name c) :=
    ⟨fun c => decide (σ (name c) = σ₀ (name c)), fun c => decide_eq_true_iff⟩
  refine ⟨_, ZarrChunks.mix sel h₀ h₁ fun c hc => ?_, fun c => ?_⟩
  · unfold pick
    split
    · next h => exact (hsel c).1 h
    · next h => exact (hσ c hc).resolve_left fun e => h ((hsel c).2 e)
  · unfold pick
    by_cases h : sel c = true
    · exact .inl fun x hx => by rw [← ((inChunk_iff_div hd).1 hx).2, if_pos h]
    · exact .inr ⟨fun e => h ((hsel c).2 e), fun x hx => by rw [← ((inChunk_iff_div hd).1 hx).2, if_neg h]⟩

theorem IsShardedArray.mix {S : List Nat} {name : List Nat → Key} {σ₀ σ₁ σ : Store} {A₀ A₁ : List Nat → E.T}
    (hd : All₂ (fun s b => 0 < b ∧ s + b ≤ 2 ^ 64) shape chunk) (hS : All₂ (fun S b => 0 < b ∧ 0 < S ∧ S % b = 0) S chunk)
    (h₀ : IsShardedArray E shape chunk (List.zipWith (· / ·) S chunk) name C fill σ₀ A₀)
    (h₁ : IsShardedArray E shape chunk (List.zipWith (· / ·) S chunk) name C fill σ₁ A₁)
    (hσ : ∀ c, InGrid shape S c → σ (name c) = σ₀ (name c) ∨ σ (name c) = σ₁ (name c)) :
    ∃ A, IsShardedArray E shape chunk (List.zipWith (· / ·) S chunk) name C fill σ A ∧
      ∀ c, (∀ x, InChunk shape S c x → A x = A₀ x) ∨ (σ (name c) ≠ σ₀ (name c) ∧ ∀ x, InChunk shape S c x → A x = A₁ x) := by
  obtain ⟨sel, hsel⟩ : ∃ sel : List Nat → Bool, ∀ c, sel c = true ↔ σ (name c) = σ₀ (name c) :=
    ⟨fun c => decide (σ (name c) = σ₀ (name c)), fun c => decide_eq_true_iff⟩
  obtain ⟨st₀, f₀, g₀⟩ := h₀
  obtain ⟨st₁, f₁, g₁⟩ := h₁
  obtain ⟨ps, hps⟩ : ∃ ps, ps = List.zipWith (· / ·) S chunk := ⟨_, rfl⟩
  rw [mulV_div hS] at f₀ f₁
  rw [← hps] at f₀ f₁ ⊢
  have hlen : ps.length = chunk.length := by rw [hps, List.length_zipWith, hS.length_eq, Nat.min_self]
  have hdiv : ∀ s j, InGrid shape S s → InBox j ps → divV (addV (mulV s ps) j) ps = s := fun s j hs hj => by
    refine (divmod_mk ?_ hj).1
    rw [hlen, ← (All₃.length_eq hs).2, hS.length_eq]
  have hstate : ∀ x s, InChunk shape S s x → divV (divV x chunk) ps = s := by
    intro x s hx
    have hc := (inChunk_iff_div hd).2 ⟨inBox_of_inChunk hx, rfl⟩
    rw [hps]
    exact inChunk_unique (ShardedDataset.inChunk_shard_aux hS hc) hx
  refine ⟨_, ⟨fun c => pick (fun c => sel (divV c ps)) c (st₀ c) (st₁ c), fun s hs => ?_,
    ZarrChunks.mix (fun c => sel (divV c ps)) g₀ g₁ fun c _ => rfl⟩, fun c => ?_⟩
  · rw [show mulV ps chunk = S by rw [hps]; exact mulV_div hS] at hs
    have hin : ∀ {k : Nat} {j : List Nat}, (cOrder ps)[k]? = some j → InBox j ps := fun h => by
      rw [cOrder_eq] at h
      exact (boxList_index h).2.2
    by_cases h : sel s = true
    · have e : ∀ j, InBox j ps → pick (fun c => sel (divV c ps)) (addV (mulV s ps) j) (st₀ (addV (mulV s ps) j)) (st₁ (addV (mulV s ps) j)) =
          st₀ (addV (mulV s ps) j) := fun j hj => by simp only [pick, hdiv s j hs hj, if_pos h]
      have := f₀ s hs
      rw [(hsel s).1 h]
      cases hv : σ₀ (name s) with
      | none => rw [hv] at this; exact fun j hj => (e j hj).trans (this j hj)
      | some y =>
        rw [hv] at this
        obtain ⟨slot, h1, h2⟩ := this
        exact ⟨slot, h1, fun k j hk => (e j (hin hk)).trans (h2 k j hk)⟩
    · have e : ∀ j, InBox j ps → pick (fun c => sel (divV c ps)) (addV (mulV s ps) j) (st₀ (addV (mulV s ps) j)) (st₁ (addV (mulV s ps) j)) =
          st₁ (addV (mulV s ps) j) := fun j hj => by simp only [pick, hdiv s j hs hj, if_neg h]
      have := f₁ s hs
      rw [(hσ s hs).resolve_left fun e => h ((hsel s).2 e)]
      cases hv : σ₁ (name s) with
      | none => rw [hv] at this; exact fun j hj => (e j hj).trans (this j hj)
      | some y =>
        rw [hv] at this
        obtain ⟨slot, h1, h2⟩ := this
        exact ⟨slot, h1, fun k j hk => (e j (hin hk)).trans (h2 k j hk)⟩
  · unfold pick
    by_cases h : sel c = true
    · exact .inl fun x hx => by simp only [hstate x c hx, if_pos h]
    · exact .inr ⟨fun e => h ((hsel c).2 e), fun x hx => by simp only [hstate x c hx, if_neg h]⟩

theorem flatMap_congr_mem {α β : Type} {f g : α → List β} : ∀ {l : List α}, (∀ i ∈ l, f i = g i) → l.flatMap f = l.flatMap g
  | [], _ => rfl
  | i :: l, h => by
    rw [List.flatMap_cons, List.flatMap_cons, h i (List.mem_cons_self ..), flatMap_congr_mem fun j hj => h j (List.mem_cons_of_mem _ hj)]

theorem mem_fOrder {s i : List Nat} (h : i ∈ fOrder s) : InBox i s := by
  rw [← List.reverse_reverse s, fOrder_reverse] at h
  obtain ⟨x, h1, rfl⟩ := List.mem_map.1 h
  rw [← List.reverse_reverse s]
  exact (mem_boxList.1 h1).rev

theorem IsN5Array.mix {σ₀ σ₁ σ : Store} {A₀ A₁ : List Nat → E.T} (hd : All₂ (fun s b => 0 < b ∧ s + b ≤ 2 ^ 64) shape chunk)
    (h₀ : IsN5Array E shape.reverse chunk.reverse C fill σ₀ fun y => A₀ y.reverse)
    (h₁ : IsN5Array E shape.reverse chunk.reverse C fill σ₁ fun y => A₁ y.reverse)
    (hσ : ∀ c, InGrid shape chunk c → σ (n5Name c.reverse) = σ₀ (n5Name c.reverse) ∨ σ (n5Name c.reverse) = σ₁ (n5Name c.reverse)) :
    ∃ A : List Nat → E.T, IsN5Array E shape.reverse chunk.reverse C fill σ (fun y => A y.reverse) ∧ ∀ c, (∀ x, InChunk shape chunk c x → A x = A₀ x) ∨
      (σ (n5Name c.reverse) ≠ σ₀ (n5Name c.reverse) ∧ ∀ x, InChunk shape chunk c x → A x = A₁ x) := by
  obtain ⟨sel, hsel⟩ : ∃ sel : List Nat → Bool, ∀ c, sel c = true ↔ σ (n5Name c.reverse) = σ₀ (n5Name c.reverse) :=
    ⟨fun c => decide (σ (n5Name c.reverse) = σ₀ (n5Name c.reverse)), fun c => decide_eq_true_iff⟩
  refine ⟨fun x => pick sel (divV x chunk) (A₀ x) (A₁ x), fun g hg => ?_, fun c => ?_⟩
  · obtain ⟨c, rfl⟩ : ∃ c : List Nat, g = c.reverse := ⟨g.reverse, (List.reverse_reverse g).symm⟩
    have hc : InGrid shape chunk c := inGrid_reverse.1 hg
    have hl := All₃.length_eq hc
    have hdiv : ∀ i, InBox i (extV shape.reverse chunk.reverse c.reverse) →
        divV (addV (mulV c.reverse chunk.reverse) i).reverse chunk = c := by
      intro i hi
      rw [extV_reverse (by omega) (by omega)] at hi
      have hi' := hi.rev
      rw [List.reverse_reverse] at hi'
      have hb : InBox i.reverse chunk := inBox_mono hi' (extV_le hc)
      have hm : (mulV c chunk).length = i.reverse.length := by
        unfold mulV
        rw [List.length_zipWith, hb.length_eq]
        omega
      rw [mulV_reverse (by omega), show i = i.reverse.reverse from (List.reverse_reverse i).symm,
        addV_reverse hm, List.reverse_reverse]
      exact (divmod_mk (by omega) hb).1
    have hcopy : ∀ (A : List Nat → E.T), (∀ i, InBox i (extV shape.reverse chunk.reverse c.reverse) →
        pick sel (divV (addV (mulV c.reverse chunk.reverse) i).reverse chunk) (A₀ (addV (mulV c.reverse chunk.reverse) i).reverse)
          (A₁ (addV (mulV c.reverse chunk.reverse) i).reverse) = A (addV (mulV c.reverse chunk.reverse) i).reverse) →
        ∀ (v : Option Bytes), (match v with
          | none => ∀ i, InBox i (extV shape.reverse chunk.reverse c.reverse) → A (addV (mulV c.reverse chunk.reverse) i).reverse = fill
          | some b => ∃ y, b = be 2 0 ++ be 2 shape.reverse.length ++ (extV shape.reverse chunk.reverse c.reverse).flatMap (be 4) ++ y ∧
              Encodes C y ((fOrder (extV shape.reverse chunk.reverse c.reverse)).flatMap fun i =>
                (E.toBytes (A (addV (mulV c.reverse chunk.reverse) i).reverse)).reverse)) →
        match v with
          | none => ∀ i, InBox i (extV shape.reverse chunk.reverse c.reverse) →
              pick sel (divV (addV (mulV c.reverse chunk.reverse) i).reverse chunk) (A₀ (addV (mulV c.reverse chunk.reverse) i).reverse)
                (A₁ (addV (mulV c.reverse chunk.reverse) i).reverse) = fill
          | some b => ∃ y, b = be 2 0 ++ be 2 shape.reverse.length ++ (extV shape.reverse chunk.reverse c.reverse).flatMap (be 4) ++ y ∧
              Encodes C y ((fOrder (extV shape.reverse chunk.reverse c.reverse)).flatMap fun i =>
                (E.toBytes (pick sel (divV (addV (mulV c.reverse chunk.reverse) i).reverse chunk)
                  (A₀ (addV (mulV c.reverse chunk.reverse) i).reverse) (A₁ (addV (mulV c.reverse chunk.reverse) i).reverse))).reverse) := by
      intro A he v hv
      cases v with
      | none => exact fun i hi => (he i hi).trans (hv i hi)
      | some b =>
        obtain ⟨y, h1, h2⟩ := hv
        refine ⟨y, h1, ?_⟩
        rw [flatMap_congr_mem fun i hi => by rw [he i (mem_fOrder hi)]]
        exact h2
    by_cases h : sel c = true
    · have := h₀ _ hg
      simp only at this ⊢
      rw [← (hsel c).1 h] at this
      exact hcopy A₀ (fun i hi => by rw [hdiv i hi, pick, if_pos h]) _ this
    · have := h₁ _ hg
      simp only at this ⊢
      rw [← (hσ c hc).resolve_left fun e => h ((hsel c).2 e)] at this
      exact hcopy A₁ (fun i hi => by rw [hdiv i hi, pick, if_neg h]) _ this
  · unfold pick
    by_cases h : sel c = true
    · exact .inl fun x hx => by rw [((inChunk_iff_div hd).1 hx).2] at h; exact if_pos h
    · exact .inr ⟨fun e => h ((hsel c).2 e), fun x hx => by rw [((inChunk_iff_div hd).1 hx).2] at h; exact if_neg h⟩

/-! ### What a document says -/

/-- One document does not describe arrays that are stored differently. -/
theorem Layout.Says.unique {La : Layout} {j : Json} {a a' : ArrayDesc} {size : Nat} (h : La.Says j a) (h' : La.Says j a')
    (hs : a.Supported La size) (hs' : a'.Supported La size) :
    a.compression = a'.compression ∧ a.fileName La = a'.fileName La ∧ a.shape = a'.shape ∧ a.chunks = a'.chunks ∧ a.shards = a'.shards := by
  have key : ∀ {m : Meta}, m.isZarr = true → m.Holds a → m.Holds a' → a.compression = a'.compression ∧ a.separator = a'.separator ∧
      a.encoding = a'.encoding ∧ a.shape = a'.shape ∧ a.chunks = a'.chunks ∧ a.shards = a'.shards := fun hm h h' =>
    ⟨Res.ok.inj (h.compression.symm.trans h'.compression), (h.separator hm).symm.trans (h'.separator hm),
      (h.encoding hm).symm.trans (h'.encoding hm), h.shape.symm.trans h'.shape, h.chunks.symm.trans h'.chunks,
      h.shards.symm.trans h'.shards⟩
  cases La with
  | n5 =>
    have read : ∀ {a : ArrayDesc}, Layout.Says .n5 j a → a.Fits → ∃ m, Meta.fromJson j false = .ok m ∧ m.Holds a := by
      intro a h hf
      rcases h with h | h
      · obtain ⟨m, m1, _, m3⟩ := c59_n5_read h hf
        exact ⟨m, m1, m3⟩
      · obtain ⟨m, m1, _, m3⟩ := c59_n5_read_old h hf
        exact ⟨m, m1, m3⟩
    obtain ⟨m, m1, m2⟩ := read h hs.fits
    obtain ⟨m', n1, n2⟩ := read h' hs'.fits
    cases Res.ok.inj (m1.symm.trans n1)
    exact ⟨Res.ok.inj (m2.compression.symm.trans n2.compression), rfl, m2.shape.symm.trans n2.shape, m2.chunks.symm.trans n2.chunks,
      m2.shards.symm.trans n2.shards⟩
  | v2 =>
    obtain ⟨m, m1, m2, _, m3⟩ := c59_v2_read h hs.fits
    obtain ⟨m', n1, _, _, n3⟩ := c59_v2_read h' hs'.fits
    cases Res.ok.inj (m1.symm.trans n1)
    obtain ⟨k1, k2, k3, k4⟩ := key m2 m3 n3
    exact ⟨k1, by unfold ArrayDesc.fileName; simp only [k2], k4⟩
  | v3 =>
    obtain ⟨m, m1, m2, _, m3⟩ := c59_v3_read h hs.fits
    obtain ⟨m', n1, _, _, n3⟩ := c59_v3_read h' hs'.fits
    cases Res.ok.inj (m1.symm.trans n1)
    obtain ⟨k1, k2, k3, k4⟩ := key m2 m3 n3
    exact ⟨k1, by unfold ArrayDesc.fileName; simp only [k2, k3], k4⟩

theorem Layout.Says.noShards {j : Json} {a : ArrayDesc} {La : Layout} (h : La.Says j a) (e : La = .n5) : a.shards = [] := by
  subst e
  rcases h with h | h
  · exact h.noShards
  · exact h.noShards

/-- Every file of an array is the one of the first state or the one of the second. -/
theorem ArrayDesc.IsStored.mix {La : Layout} {a : ArrayDesc} (hn : La = .n5 → a.shards = []) (hs : a.Supported La E.size) {σ₀ σ₁ σ : Store}
    {A₀ A₁ : List Nat → E.T} (h₀ : a.IsStored La E C fill σ₀ A₀) (h₁ : a.IsStored La E C fill σ₁ A₁)
    (hσ : ∀ c, InGrid a.shape a.part c → σ (a.fileName La c) = σ₀ (a.fileName La c) ∨ σ (a.fileName La c) = σ₁ (a.fileName La c)) :
    ∃ A, a.IsStored La E C fill σ A ∧
      ∀ c, (∀ x, InChunk a.shape a.part c x → A x = A₀ x) ∨
        (σ (a.fileName La c) ≠ σ₀ (a.fileName La c) ∧ ∀ x, InChunk a.shape a.part c x → A x = A₁ x) := by
  have zarr : (∀ (σ : Store) (A : List Nat → E.T), a.IsStored La E C fill σ A =
      if a.shards = [] then IsZarrArray E a.shape a.chunks (a.fileName La) C fill σ A
      else IsShardedArray E a.shape a.chunks (List.zipWith (· / ·) a.shards a.chunks) (a.fileName La) C fill σ A) →
      ∃ A, a.IsStored La E C fill σ A ∧
        ∀ c, (∀ x, InChunk a.shape a.part c x → A x = A₀ x) ∨
          (σ (a.fileName La c) ≠ σ₀ (a.fileName La c) ∧ ∀ x, InChunk a.shape a.part c x → A x = A₁ x) := by
    intro e
    simp only [e] at h₀ h₁ ⊢
    unfold ArrayDesc.part at hσ ⊢
    by_cases hsh : a.shards = []
    · simp only [if_pos hsh] at h₀ h₁ hσ ⊢
      exact IsZarrArray.mix hs.dims.2 h₀ h₁ hσ
    · simp only [if_neg hsh] at h₀ h₁ hσ ⊢
      exact IsShardedArray.mix hs.dims.2 (hs.shards_all hsh) h₀ h₁ hσ
  cases La with
  | n5 =>
    unfold ArrayDesc.part at hσ ⊢
    simp only [if_pos (hn rfl)] at hσ ⊢
    exact IsN5Array.mix hs.dims.2 h₀ h₁ hσ
  | v2 => exact zarr fun _ _ => rfl
  | v3 => exact zarr fun _ _ => rfl

/-- Without files all elements have the fill value. -/
theorem ArrayDesc.IsStored.empty {La : Layout} {a : ArrayDesc} : a.IsStored La E C fill (fun _ => none) fun _ => fill := by
  have zc : ∀ s : List Nat → Option Bytes, (∀ c, s c = none) → ZarrChunks E a.shape a.chunks C fill s fun _ => fill := by
    intro s h
    refine ⟨fun _ => fill, fun _ _ => rfl, fun c _ => ?_⟩
    rw [h c]
    exact fun _ _ => rfl
  have zarr : (if a.shards = [] then IsZarrArray E a.shape a.chunks (a.fileName La) C fill (fun _ => none) fun _ => fill
      else IsShardedArray E a.shape a.chunks (List.zipWith (· / ·) a.shards a.chunks) (a.fileName La) C fill (fun _ => none) fun _ => fill) := by
    split
    · exact zc _ fun _ => rfl
    · exact ⟨fun _ => none, fun _ _ _ _ => rfl, zc _ fun _ => rfl⟩
  cases La with
  | n5 => exact fun _ _ _ _ => rfl
  | v2 => exact zarr
  | v3 => exact zarr

/-- Every file of an array is the one of the first state, the one of the second, or absent. -/
theorem ArrayDesc.IsStored.mend {La : Layout} {a : ArrayDesc} (hn : La = .n5 → a.shards = []) (hs : a.Supported La E.size) {σ₀ σ₁ σ : Store}
    {A₀ A₁ : List Nat → E.T} (h₀ : a.IsStored La E C fill σ₀ A₀) (h₁ : a.IsStored La E C fill σ₁ A₁)
    (hσ : ∀ c, InGrid a.shape a.part c → σ (a.fileName La c) = σ₀ (a.fileName La c) ∨ σ (a.fileName La c) = σ₁ (a.fileName La c) ∨
      σ (a.fileName La c) = none) :
    ∃ A, a.IsStored La E C fill σ A ∧
      ∀ c, (∀ x, InChunk a.shape a.part c x → A x = A₀ x) ∨ (∀ x, InChunk a.shape a.part c x → A x = A₁ x) ∨
        (σ (a.fileName La c) = none ∧ σ₀ (a.fileName La c) ≠ none ∧ σ₁ (a.fileName La c) ≠ none ∧
          ∀ x, InChunk a.shape a.part c x → A x = fill) := by
  obtain ⟨B, b1, b2⟩ := h₀.mix hn hs h₁ (σ := fun k => if σ k = σ₀ k then σ₀ k else σ₁ k) fun c _ => by
    split
    · exact .inl rfl
    · exact .inr rfl
  obtain ⟨A, a1, a2⟩ := b1.mix hn hs ArrayDesc.IsStored.empty (σ := σ) fun c hc => by
    split
    · next h => exact .inl h
    · next h => exact (hσ c hc).elim (fun e => absurd e h) id
  refine ⟨A, a1, fun c => ?_⟩
  rcases a2 c with h | ⟨h, h'⟩
  · rcases b2 c with g | ⟨_, g⟩
    · exact .inl fun x hx => (h x hx).trans (g x hx)
    · exact .inr (.inl fun x hx => (h x hx).trans (g x hx))
  · by_cases hc : InGrid a.shape a.part c
    · split at h
      · next e => exact absurd e h
      · next e =>
        have hn := ((hσ c hc).resolve_left e).resolve_left h
        rw [hn] at e h
        exact .inr (.inr ⟨hn, fun e' => e e'.symm, fun e' => h e'.symm, h'⟩)
    · exact .inl fun x hx => absurd (inGrid_of_inChunk hx) hc

theorem ArrayDesc.IsStored.described {La : Layout} {a a' : ArrayDesc} {σ : Store}
    {A : List Nat → E.T} (h : a.IsStored La E C fill σ A) (hn : a.fileName La = a'.fileName La) (hs : a.shape = a'.shape)
    (hc : a.chunks = a'.chunks) (hsh : a.shards = a'.shards) : a'.IsStored La E C fill σ A := by
  cases La with
  | n5 => unfold ArrayDesc.IsStored at h ⊢; simp only at h ⊢; rw [← hs, ← hc]; exact h
  | v2 => unfold ArrayDesc.IsStored at h ⊢; simp only at h ⊢; rw [← hn, ← hs, ← hc, ← hsh]; exact h
  | v3 => unfold ArrayDesc.IsStored at h ⊢; simp only at h ⊢; rw [← hn, ← hs, ← hc, ← hsh]; exact h

end Z5
