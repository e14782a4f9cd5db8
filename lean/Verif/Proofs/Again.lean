import Verif.Spec.Again
import Verif.Proofs.ArrayMix
import Verif.Proofs.TogetherRun
import Verif.Proofs.Interrupted

/-!
# Trees after calls that are made again (for C93)
-/

namespace Z5
open Spec Prog Props

variable {Ty : ElemTypes} {T T₁ T' T'' T₁' : Tree Ty}

theorem inChunk_div : ∀ {shape part y : List Nat}, shape.length = part.length → (∀ b ∈ part, 0 < b) → InBox y shape →
    InChunk shape part (divV y part) y
  | [], [], [], _, _, _ => trivial
  | [], _ :: _, _, h, _, _ => by cases h
  | _ :: _, [], _, h, _, _ => by cases h
  | s :: shape, b :: part, [], _, _, h => h.elim
  | s :: shape, b :: part, x :: y, hl, hb, h => by
    have hb0 : 0 < b := hb b (List.mem_cons_self ..)
    have := (div_eq_iff (x := x) (b := b) (c := x / b) hb0).1 rfl
    exact ⟨⟨this.1, this.2, h.1⟩, inChunk_div (Nat.succ.inj hl) (fun b h => hb b (List.mem_cons_of_mem _ h)) h.2⟩

theorem all₂_length {P : Nat → Nat → Prop} : ∀ {a b : List Nat}, All₂ P a b → a.length = b.length
  | [], [], _ => rfl
  | _ :: _, _ :: _, h => congrArg (· + 1) (all₂_length h.2)

theorem all₂_left {P : Nat → Nat → Prop} {Q : Nat → Prop} (hPQ : ∀ a b, P a b → Q a) : ∀ {a b : List Nat}, All₂ P a b → ∀ x ∈ a, Q x
  | [], [], _, _, h => by cases h
  | _ :: _, _ :: _, h, x, hx => by
    rcases List.mem_cons.1 hx with rfl | hx
    · exact hPQ _ _ h.1
    · exact all₂_left hPQ h.2 x hx

/-- every element is in a chunk -/
theorem ArrayItem.IsDescribed.exists_part {x : ArrayItem Ty} {a : ArrayDesc} {La : Layout} (h : x.IsDescribed a La) {y : List Nat}
    (hy : InBox y x.shape) : ∃ c, InChunk x.shape (x.shards.getD x.chunks) c y := by
  refine ⟨_, inChunk_div ?_ ?_ hy⟩
  · rw [← Container.part_getD h.chunks h.shards, ← h.shape]
    unfold ArrayDesc.part
    split
    · exact h.supported.axes.2.2
    · rename_i e
      exact h.supported.axes.2.2.trans (all₂_length (h.supported.shards e).1).symm
  · rw [← Container.part_getD h.chunks h.shards]
    unfold ArrayDesc.part
    split
    · exact h.supported.positive
    · rename_i e
      exact all₂_left (fun _ _ h => h.1) (h.supported.shards e).1

/-- the calls have been made again -/
theorem Tree.Salvaged.again {ι : Type} {missing : Path → List Nat → Prop} {js : List ι} {u f : ι → WriteJob Ty}
    (hpart : ∀ p x, T p = some (.array x) → ∀ y, InBox y x.shape → ∃ c, InChunk x.shape (x.shards.getD x.chunks) c y)
    (hitem : ∀ j ∈ js, T (u j).path = some (.array (u j).item)) (hf : ∀ j ∈ js, (f j).Again (u j))
    (hitem' : ∀ j ∈ js, T' (f j).path = some (.array (f j).item))
    (k2 : ∀ p, (∀ j ∈ js, (u j).path ≠ p) → T₁ p = T p)
    (k3 : ∀ j ∈ js, ∃ A, T₁ (u j).path = some (.array { (u j).item with content := A }) ∧
      (∀ y, InBox y (u j).item.shape → InRegion y (u j).write.off (u j).write.shape → A y = (u j).write.val (subV y (u j).write.off)) ∧
      ∀ y, (∀ k ∈ js, (u k).path = (u j).path → ¬ InRegion y (u k).write.off (u k).write.shape) → A y = (u j).item.content y)
    (k2' : ∀ p, (∀ j ∈ js, (f j).path ≠ p) → T'' p = T' p)
    (k3' : ∀ j ∈ js, ∃ A, T'' (f j).path = some (.array { (f j).item with content := A }) ∧
      (∀ y, InBox y (f j).item.shape → InRegion y (f j).write.off (f j).write.shape → A y = (f j).write.val (subV y (f j).write.off)) ∧
      ∀ y, (∀ k ∈ js, (f k).path = (f j).path → ¬ InRegion y (f k).write.off (f k).write.shape) → A y = (f j).item.content y)
    (hs : T.Salvaged missing T₁ T')
    (hm : ∀ p x c y, missing p c → T p = some (.array x) → InChunk x.shape (x.shards.getD x.chunks) c y →
      ∃ j ∈ js, (u j).path = p ∧ InRegion y (u j).write.off (u j).write.shape) :
    T₁.Same T'' := by
  have hpath : ∀ j ∈ js, (f j).path = (u j).path := by
    intro j hj
    obtain ⟨o, A, d, ts, e⟩ := hf j hj
    rw [e]
  intro p
  by_cases hp : ∃ j ∈ js, (u j).path = p
  · obtain ⟨j, hj, rfl⟩ := hp
    obtain ⟨A₁, a1, a2, a3⟩ := k3 j hj
    rw [a1]
    have hsj := hs (u j).path
    rw [hitem j hj] at hsj
    obtain ⟨B, A', b1, b2, b3⟩ := hsj
    have eB : B = A₁ := by
      have := b1.symm.trans a1
      injection this with this; injection this with this
      exact eq_of_heq (ArrayItem.mk.inj this).2.2.2.2.2.1
    subst eB
    -- the call that is made again
    have hfj : ∃ o d ts, f j = ⟨(u j).path, o, { (u j).item with content := A' }, d, (u j).write, ts⟩ := by
      obtain ⟨o, A, d, ts, e⟩ := hf j hj
      have := hitem' j hj
      rw [e] at this
      have := this.symm.trans b2
      injection this with this; injection this with this
      have := eq_of_heq (ArrayItem.mk.inj this).2.2.2.2.2.1
      subst this
      exact ⟨o, d, ts, e⟩
    obtain ⟨o, d, ts, e⟩ := hfj
    have hk := k3' j hj
    generalize f j = w at hk e
    subst e
    obtain ⟨A'', c1, _, c3⟩ := hk
    refine ⟨A'', c1, fun y hy => ?_⟩
    have hy : InBox y (u j).item.shape := hy
    show SameOrFill (Ty.elem (u j).item.dtype).ceq (u j).item.fill (A'' y) (B y)
    by_cases hreg : ∃ k ∈ js, (u k).path = (u j).path ∧ InRegion y (u k).write.off (u k).write.shape
    · obtain ⟨k, hk, hkp, hin⟩ := hreg
      left
      have hi : (u k).item = (u j).item := by
        have h1 := hitem k hk
        rw [hkp, hitem j hj] at h1
        injection h1 with h1; injection h1 with h1
        exact h1.symm
      obtain ⟨Ak, x1, x2, _⟩ := k3 k hk
      have hk' := k3' k hk
      obtain ⟨ok, Ck, dk, tk, ek⟩ := hf k hk
      generalize f k = w' at hk' ek
      subst ek
      obtain ⟨Ak'', y1, y2, _⟩ := hk'
      generalize u k = w at *
      obtain ⟨kp, ko, ki, kd, kw, kt⟩ := w
      simp only at hkp hi hin x1 x2 y1 y2
      subst hi
      subst hkp
      have e1 : Ak = B := by
        have := x1.symm.trans a1
        injection this with this; injection this with this
        exact eq_of_heq (ArrayItem.mk.inj this).2.2.2.2.2.1
      have e2 : Ak'' = A'' := by
        have := y1.symm.trans c1
        injection this with this; injection this with this
        exact eq_of_heq (ArrayItem.mk.inj this).2.2.2.2.2.1
      rw [← e1, ← e2]
      exact (y2 y hy hin).trans (x2 y hy hin).symm
    · have hout : ∀ k ∈ js, (u k).path = (u j).path → ¬ InRegion y (u k).write.off (u k).write.shape := fun k hk h1 h2 => hreg ⟨k, hk, h1, h2⟩
      rw [c3 y fun k hk h1 h2 => by
        obtain ⟨ok, Ck, dk, tk, ek⟩ := hf k hk
        rw [ek] at h1 h2
        exact hout k hk h1 h2]
      show SameOrFill (Ty.elem (u j).item.dtype).ceq (u j).item.fill (A' y) (B y)
      obtain ⟨c, hc⟩ := hpart _ _ (hitem j hj) y hy
      rcases b3 c with h | h | ⟨h, _⟩
      · rw [a3 y hout]; exact h y hc
      · exact h y hc
      · obtain ⟨k, hk, h1, h2⟩ := hm _ _ c y h (hitem j hj) hc
        exact absurd h2 (hout k hk h1)
  · have hp1 : ∀ j ∈ js, (u j).path ≠ p := fun j hj e => hp ⟨j, hj, e⟩
    have hp2 : ∀ j ∈ js, (f j).path ≠ p := fun k hk => by rw [hpath k hk]; exact hp1 k hk
    rw [k2 p hp1, k2' p hp2]
    have := hs p
    rw [k2 p hp1] at this
    cases e : T p with
    | none => rw [e] at this; exact this.2
    | some i =>
      rw [e] at this
      cases i with
      | group A => exact this.2
      | array x =>
        obtain ⟨B, A, h1, h2, h3⟩ := this
        refine ⟨A, h2, fun y hy => ?_⟩
        have eB : x.content = B := by
          injection h1 with h1; injection h1 with h1
          cases x
          exact eq_of_heq (ArrayItem.mk.inj h1).2.2.2.2.2.1
        subst eB
        obtain ⟨c, hc⟩ := hpart p x e y hy
        rcases h3 c with h | h | ⟨h, _⟩
        · exact h y hc
        · exact h y hc
        · obtain ⟨j, hj, h1, _⟩ := hm p x c y h e hc
          exact absurd h1 (hp1 j hj)

theorem Tree.Between.salvaged (h : T.Between T₁ T') : T.Salvaged (fun _ _ => False) T₁ T' := by
  intro p
  have := h p
  cases e : T p with
  | none => rw [e] at this; exact this
  | some i =>
    rw [e] at this
    cases i with
    | group A => exact this
    | array x =>
      obtain ⟨B, A, h1, h2, h3⟩ := this
      exact ⟨B, A, h1, h2, fun c => (h3 c).imp id .inl⟩

/-- another interruption -/
theorem Tree.Between.step (h : T.Between T₁ T') (hs : T₁.Same T₁') (h' : T'.Between T₁' T'') : T.Between T₁ T'' := by
  intro p
  have h := h p
  have hs := hs p
  have h' := h' p
  cases e : T p with
  | none =>
    rw [e] at h
    rw [h.2] at h'
    exact ⟨h.1, h'.2⟩
  | some i =>
    rw [e] at h
    cases i with
    | group A =>
      rw [h.2] at h'
      exact ⟨h.1, h'.2⟩
    | array x =>
      obtain ⟨B, A, h1, h2, h3⟩ := h
      rw [h1] at hs
      rw [h2] at h'
      obtain ⟨B', s1, s2⟩ := hs
      obtain ⟨B'', A'', t1, t2, t3⟩ := h'
      have eB : B'' = B' := by
        have := t1.symm.trans s1
        injection this with this; injection this with this
        exact eq_of_heq (ArrayItem.mk.inj this).2.2.2.2.2.1
      subst eB
      refine ⟨B, A'', h1, t2, fun c => ?_⟩
      rcases t3 c with t | t
      · rcases h3 c with g | g
        · exact .inl fun y hy => (t y hy).trans (g y hy)
        · exact .inr fun y hy => (t y hy).trans (g y hy)
      · exact .inr fun y hy => (t y hy).trans (s2 y (inBox_of_inChunk hy))

theorem Tree.Salvaged.mono {m m' : Path → List Nat → Prop} (h : T.Salvaged m T₁ T')
    (hm : ∀ p c, m p c → m' p c) : T.Salvaged m' T₁ T' := by
  intro p
  have := h p
  cases e : T p with
  | none => rw [e] at this; exact this
  | some i =>
    rw [e] at this
    cases i with
    | group A => exact this
    | array x =>
      obtain ⟨B, A, h1, h2, h3⟩ := this
      exact ⟨B, A, h1, h2, fun c => (h3 c).imp id (Or.imp id fun ⟨a, b⟩ => ⟨hm p c a, b⟩)⟩

/-- another interruption, on files -/
theorem Tree.Salvaged.step {m : Path → List Nat → Prop} (h : T.Salvaged m T₁ T') (hs : T₁.Same T₁') (h' : T'.Salvaged m T₁' T'') :
    T.Salvaged m T₁ T'' := by
  intro p
  have h := h p
  have hs := hs p
  have h' := h' p
  cases e : T p with
  | none =>
    rw [e] at h
    rw [h.2] at h'
    exact ⟨h.1, h'.2⟩
  | some i =>
    rw [e] at h
    cases i with
    | group A =>
      rw [h.2] at h'
      exact ⟨h.1, h'.2⟩
    | array x =>
      obtain ⟨B, A, h1, h2, h3⟩ := h
      rw [h1] at hs
      rw [h2] at h'
      obtain ⟨B', s1, s2⟩ := hs
      obtain ⟨B'', A'', t1, t2, t3⟩ := h'
      have eB : B'' = B' := by
        have := t1.symm.trans s1
        injection this with this; injection this with this
        exact eq_of_heq (ArrayItem.mk.inj this).2.2.2.2.2.1
      subst eB
      refine ⟨B, A'', h1, t2, fun c => ?_⟩
      rcases t3 c with t | t | ⟨t, t'⟩
      · rcases h3 c with g | g | ⟨g, g'⟩
        · exact .inl fun y hy => (t y hy).trans (g y hy)
        · exact .inr (.inl fun y hy => (t y hy).trans (g y hy))
        · refine .inr (.inr ⟨g, fun y hy => ?_⟩)
          rcases t y hy with e | ⟨_, e⟩
          · exact e.trans (g' y hy)
          · exact e
      · exact .inr (.inl fun y hy => (t y hy).trans (s2 y (inBox_of_inChunk hy)))
      · exact .inr (.inr ⟨t, t'⟩)

variable {C : Container} {L : Libs} {os : List (Path × DatasetObj)} {σ : Fs} {js : List (WriteJob Ty)}

/-- a file is that of one chunk only -/
theorem Container.ChunkFile.unique (hL : L.Lawful) (hI : C.Inv L T os σ) (hr : ∀ j ∈ js, j.Ready L T os) {p p' q : Path} {c c' : List Nat}
    (h : C.ChunkFile T σ p c q) (h' : C.ChunkFile T σ p' c' q) (hw : WritesTo js p' c') : WritesTo js p c := by
  obtain ⟨x, a, i, hx, his, hi, hsay, hg, e⟩ := h
  obtain ⟨x', a', i', hx', his', hi', hsay', hg', e'⟩ := h'
  have hpp : p = p' := Classical.byContradiction fun hne => by
    refine WriteJob.leaf_apart hI hx hx' hne (a := q) (b := q) ?_ ?_ (List.prefix_refl _)
    · rw [e]; exact List.prefix_append _ _
    · rw [e']; exact List.prefix_append _ _
  subst hpp
  rw [hx] at hx'
  cases hx'
  rw [hi] at hi'
  cases hi'
  obtain ⟨u1, u2, u3, u4, u5⟩ := Layout.Says.unique hsay hsay' his.supported his'.supported
  obtain ⟨j, hj, rfl, y, hy1, hy2⟩ := hw
  have hjr := hr j hj
  rw [hjr.item] at hx
  cases hx
  obtain ⟨fk, hfk⟩ := (hI.array _ _ hjr.item).facts hL
  have ff := hfk _ hjr.object j.data hjr.typed
  obtain ⟨a₀, A₀, _, g, hkey⟩ := (hI.array _ _ hjr.item).holds hL
  have hk := (hkey _ hjr.object j.data hjr.typed).2
  obtain ⟨i₀, j1, j2⟩ := g.holds.document
  rw [hi] at j1
  cases j1
  obtain ⟨v1, v2, v3, v4, v5⟩ := Layout.Says.unique hsay j2 his.supported g.is.supported
  have hpa : a.part = j.part := Container.part_getD his.chunks his.shards
  have hpa' : a'.part = j.part := Container.part_getD his'.chunks his'.shards
  have hcc : c = c' := by
    refine ff.wf.fileKey_inj ?_ ?_ ?_
    · rw [ff.shape, ff.part]
      rw [his.shape, hpa] at hg
      exact hg
    · rw [ff.shape, ff.part]
      rw [his'.shape, hpa'] at hg'
      exact hg'
    · rw [hk, hk]
      have := chunkFile_inj (e.symm.trans e')
      rw [← u2, v2] at this
      exact this
  subst hcc
  exact ⟨j, hj, rfl, y, hy1, hy2⟩

end Z5
