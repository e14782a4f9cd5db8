import Verif.Spec.Interrupted
import Verif.Proofs.ArrayMix
import Verif.Proofs.ContainerBytes
import Verif.Proofs.TogetherRun

/-!
# A container on files after an interrupted call (for C92)
-/

namespace Z5
open Spec Prog Props

variable {Ty : ElemTypes} {C : Container} {L : Libs} {T T₁ : Tree Ty} {os : List (Path × DatasetObj)} {σ σ₁ σ' σ'' : Fs}

namespace Container

/-- an array between two states -/
theorem ArrayHolds.mend {p : Path} {x : ArrayItem Ty} {B A₀ A₁ : List Nat → (Ty.elem x.dtype).T} {a₀ a₁ : ArrayDesc}
    (h₀ : C.ArrayHolds L σ p x a₀ A₀) (h₁ : C.ArrayHolds L σ₁ p { x with content := B } a₁ A₁)
    (hd₁ : ∀ n, MetaName n → σ₁ (C.root ++ p ++ [n]) = σ (C.root ++ p ++ [n]))
    (hd : ∀ n, MetaName n → σ'' (C.root ++ p ++ [n]) = σ (C.root ++ p ++ [n]))
    (hdir : ∀ q, σ q = some .dir → σ'' q = some .dir)
    (hc : ∀ q, σ'' q = σ q ∨ σ'' q = σ₁ q ∨ σ'' q = none) :
    ∃ A, C.ArrayHolds L σ'' p x a₀ A ∧ ∀ c, (∀ y, InChunk x.shape (x.shards.getD x.chunks) c y → A y = A₀ y) ∨
      (∀ y, InChunk x.shape (x.shards.getD x.chunks) c y → A y = A₁ y) ∨
      (σ'' (chunkFile (C.root ++ p) (a₀.fileName C.layout c)) = none ∧ σ (chunkFile (C.root ++ p) (a₀.fileName C.layout c)) ≠ none ∧
        σ₁ (chunkFile (C.root ++ p) (a₀.fileName C.layout c)) ≠ none ∧
        ∀ y, InChunk x.shape (x.shards.getD x.chunks) c y → A y = x.fill) := by
  have hsup₁ : a₁.Supported C.layout (Ty.elem x.dtype).size := h₁.is.supported
  obtain ⟨j, j1, j2⟩ := h₀.holds.document
  obtain ⟨j', j1', j2'⟩ := h₁.holds.document
  have hjj : j' = j := by
    unfold Fs.docAt at j1 j1'
    rw [hd₁ _ (datasetFile_meta _), j1] at j1'
    cases j1'
    rfl
  subst hjj
  obtain ⟨u1, u2, u3, u4, u5⟩ := Layout.Says.unique j2' j2 hsup₁ h₀.is.supported
  have e₁ : a₁.IsStored C.layout (Ty.elem x.dtype) (L.codec (Ty.elem x.dtype).size a₁.compression) x.fill (σ₁.chunks (C.root ++ p)) A₁ :=
    h₁.holds.elements
  rw [u1] at e₁
  have hfile : a₁.IsFile C.layout = a₀.IsFile C.layout := by
    unfold ArrayDesc.IsFile ArrayDesc.part
    rw [u2, u3, u4, u5]
  have t₁ : Tidy (C.root ++ p) (a₀.IsFile C.layout) σ₁ := hfile ▸ h₁.holds.tidy
  have t₀ := h₀.holds.tidy
  have tidy : Tidy (C.root ++ p) (a₀.IsFile C.layout) σ'' := by
    refine ⟨fun q hq => hdir q (t₀.above q hq), fun k hk => ?_, fun k hk q h1 h2 h3 => ?_⟩
    · rcases hc (chunkFile (C.root ++ p) k) with e | e | e
      · rw [e]; exact t₀.files k hk
      · rw [e]; exact t₁.files k hk
      · rw [e]; rfl
    · rcases hc q with e | e | e
      · rw [e]; exact t₀.dirs k hk q h1 h2 h3
      · rw [e]; exact t₁.dirs k hk q h1 h2 h3
      · rw [e]; rfl
  obtain ⟨A, g1, g2⟩ := h₀.holds.elements.mend j2.noShards h₀.is.supported (e₁.described u2 u3 u4 u5) (σ := σ''.chunks (C.root ++ p))
    fun c _ => by
      rcases hc (chunkFile (C.root ++ p) (a₀.fileName C.layout c)) with e | e | e
      · exact .inl (congrArg contentOf e)
      · exact .inr (.inl (congrArg contentOf e))
      · exact .inr (.inr (congrArg contentOf e))
  have hp : σ'' (C.root ++ p) = σ (C.root ++ p) := by
    rw [t₀.above _ (List.prefix_refl _)]
    exact hdir _ (t₀.above _ (List.prefix_refl _))
  refine ⟨A, ⟨h₀.is, ⟨tidy, ⟨j', ?_, j2⟩, fun n hn hne => ?_, g1⟩, h₀.kind.congr hd, h₀.node.congr hp hd, ?_⟩, ?_⟩
  · rw [← j1]
    unfold Fs.docAt
    rw [hd _ (datasetFile_meta _)]
  · rw [hd n (other_meta hn)]
    exact h₀.holds.others n hn hne
  · rw [attributes_congr hd]; exact h₀.attrs
  · rw [← part_getD h₀.is.chunks h₀.is.shards, ← h₀.is.shape]
    intro c
    by_cases hg : InGrid a₀.shape a₀.part c
    · refine (g2 c).imp id (Or.imp id fun ⟨e, e0, e1, e'⟩ => ⟨?_, fun h => e0 (congrArg contentOf h), fun h => e1 (congrArg contentOf h), e'⟩)
      have e : contentOf (σ'' (chunkFile (C.root ++ p) (a₀.fileName C.layout c))) = none := e
      have := tidy.files _ ⟨c, hg, rfl⟩
      revert e this
      cases σ'' (chunkFile (C.root ++ p) (a₀.fileName C.layout c)) with
      | none => exact fun _ _ => rfl
      | some v =>
        cases v with
        | dir => exact fun _ e => by cases e
        | file b => exact fun e _ => by cases e
        | doc j => exact fun _ e => by cases e
    · exact .inl fun y hy => absurd (inGrid_of_inChunk hy) hg

/-- the files are between two states of the container -/
theorem Inv.mend (hL : L.Lawful) (hC : C.Ok) (h : C.Inv L T os σ) (h₁ : C.Inv L T₁ os σ₁)
    (hsame : ∀ p, (∀ x, T p ≠ some (.array x)) → T₁ p = T p)
    (harr : ∀ p x, T p = some (.array x) → ∃ B, T₁ p = some (.array { x with content := B }))
    (hd₁ : ∀ p n, T p ≠ none → MetaName n → σ₁ (C.root ++ p ++ [n]) = σ (C.root ++ p ++ [n]))
    (hd : ∀ p n, T p ≠ none → MetaName n → σ'' (C.root ++ p ++ [n]) = σ (C.root ++ p ++ [n]))
    (hdir : ∀ q, σ q = some .dir → σ'' q = some .dir) (hwf : σ''.WF)
    (hc : ∀ q, σ'' q = σ q ∨ σ'' q = σ₁ q ∨ σ'' q = none) {R : RawFs} (hR : R.Stores σ'') :
    ∃ T', T.Salvaged (fun p c => ∃ q, C.ChunkFile T σ p c q ∧ σ'' q = none ∧ σ q ≠ none ∧ σ₁ q ≠ none) T₁ T' ∧ R.HoldsContainer C L T' := by
  have hgr : ∀ p A, T p = some (.group A) → T₁ p = some (.group A) := fun p A hA => by
    rw [hsame p (by rw [hA]; exact fun _ e => by cases e)]; exact hA
  obtain ⟨T', k1, k2⟩ := bytes_of (L := L) (T := T) (σ := σ'') hC hwf h.top h.closed h.names
    (fun p A hA => by
      have g := h.group p A hA
      refine g.congr ?_ fun n hn => hd p n (by rw [hA]; exact fun e => by cases e) hn
      rw [g.node.dir]
      exact hdir _ g.node.dir)
    (fun p n ⟨A, hA⟩ hn => by
      have hn₁ : T₁ (p ++ [n]) = none := by rw [hsame _ (by rw [hn]; exact fun _ e => by cases e)]; exact hn
      have g := h.known p n ⟨A, hA⟩ hn
      have g₁ := h₁.known p n ⟨A, hgr p A hA⟩ hn₁
      rcases hc (C.root ++ (p ++ [n])) with e | e | e
      · rw [e]; exact g
      · rw [e]; exact g₁
      · rw [e]; exact ⟨rfl, fun _ => rfl⟩)
    (Q := fun p x A => ∃ B, T₁ p = some (.array { x with content := B }) ∧
      ∀ c, (∀ y, InChunk x.shape (x.shards.getD x.chunks) c y → SameOrFill (Ty.elem x.dtype).ceq x.fill (A y) (x.content y)) ∨
        (∀ y, InChunk x.shape (x.shards.getD x.chunks) c y → SameOrFill (Ty.elem x.dtype).ceq x.fill (A y) (B y)) ∨
        ((∃ q, C.ChunkFile T σ p c q ∧ σ'' q = none ∧ σ q ≠ none ∧ σ₁ q ≠ none) ∧ ∀ y, InChunk x.shape (x.shards.getD x.chunks) c y → A y = x.fill))
    (fun p x hx => by
      obtain ⟨B, hB⟩ := harr p x hx
      have hp : T p ≠ none := by rw [hx]; exact fun e => by cases e
      obtain ⟨a₀, A₀, s₀, g₀, _⟩ := (h.array p x hx).holds hL
      obtain ⟨a₁, A₁, s₁, g₁, _⟩ := (h₁.array p _ hB).holds hL
      obtain ⟨A, m1, m2⟩ := g₀.mend g₁ (fun n hn => hd₁ p n hp hn) (fun n hn => hd p n hp hn) hdir hc
      refine ⟨a₀, A, ⟨B, hB, fun c => ?_⟩, m1⟩
      rcases m2 c with e | e | ⟨e, e0, e1, e'⟩
      · exact .inl fun y hy => by rw [e y hy]; exact s₀ y (inBox_of_inChunk hy)
      · exact .inr (.inl fun y hy => by rw [e y hy]; exact s₁ y (inBox_of_inChunk hy))
      · by_cases hg : InGrid a₀.shape a₀.part c
        · obtain ⟨j, j1, j2⟩ := g₀.holds.document
          exact .inr (.inr ⟨⟨_, ⟨x, a₀, j, hx, g₀.is, j1, j2, hg, rfl⟩, e, e0, e1⟩, e'⟩)
        · refine .inl fun y hy => absurd (inGrid_of_inChunk hy) ?_
          rw [← part_getD g₀.is.chunks g₀.is.shards, ← g₀.is.shape]
          exact hg) hR
  refine ⟨T', fun p => ?_, k2⟩
  have := k1 p
  cases e : T p with
  | none =>
    rw [e] at this
    exact ⟨by rw [hsame p (by rw [e]; exact fun _ e => by cases e)]; exact e, this⟩
  | some i =>
    rw [e] at this
    cases i with
    | group A => exact ⟨by rw [hsame p (by rw [e]; exact fun _ e => by cases e)]; exact e, this⟩
    | array x =>
      obtain ⟨A, h1, B, h2, h3⟩ := this
      exact ⟨B, A, h2, h1, h3⟩

/-- the file of a chunk is no directory, and has no name of a document -/
theorem ChunkFile.file (hL : L.Lawful) (h : C.Inv L T os σ) {p q : Path} {c : List Nat} (hq : C.ChunkFile T σ p c q) :
    isForeign (σ q) = false ∧ ∀ r n, MetaName n → q ≠ r ++ [n] := by
  obtain ⟨x, a, j, hx, his, hj, hsay, hg, rfl⟩ := hq
  obtain ⟨a₀, A₀, s₀, g₀, _⟩ := (h.array p x hx).holds hL
  obtain ⟨j', j1, j2⟩ := g₀.holds.document
  rw [hj] at j1
  cases j1
  obtain ⟨u1, u2, u3, u4, u5⟩ := Layout.Says.unique hsay j2 his.supported g₀.is.supported
  refine ⟨g₀.holds.tidy.files _ ⟨c, by unfold ArrayDesc.part at hg ⊢; rw [← u3, ← u4, ← u5]; exact hg, by rw [u2]⟩, fun r n hn e => ?_⟩
  obtain ⟨s, y, h1, h2, h3⟩ := (show a.IsFile C.layout _ from ⟨c, hg, rfl⟩).last (p := C.root ++ p) his.supported.axes.1
  rw [e, List.getLast?_append] at h1
  cases h1
  rcases hn with rfl | rfl | rfl | rfl | rfl <;> · cases h2; revert h3; decide

theorem ChunkFile.congr {p q : Path} {c : List Nat} (hsame : ∀ x, T p = some (.array x) → ∃ B, T₁ p = some (.array { x with content := B }))
    (hd : ∀ n, MetaName n → σ₁ (C.root ++ p ++ [n]) = σ (C.root ++ p ++ [n])) (h : C.ChunkFile T σ p c q) : C.ChunkFile T₁ σ₁ p c q := by
  obtain ⟨x, a, j, hx, his, hj, h⟩ := h
  obtain ⟨B, hB⟩ := hsame x hx
  refine ⟨_, a, j, hB, ⟨his.dtype, his.shape, his.chunks, his.shards, his.fill, his.supported, his.number⟩, ?_, h⟩
  rw [← hj]
  unfold Fs.docAt
  rw [hd _ (datasetFile_meta _)]

end Container

namespace WriteJob

/-- the file of a task is one of a chunk -/
theorem ReadyAs.isChunkFile (hL : L.Lawful) (hI : C.Inv L T os σ) {e : WriteJob Ty × List (Key × Prog Unit)} (h : ReadyAs e L T os) :
    ∀ f ∈ fileJobs C e, ∃ c y, InRegion y e.1.write.off e.1.write.shape ∧ InChunk e.1.item.shape e.1.part c y ∧
      C.ChunkFile T σ e.1.path c f.file := by
  intro f hf
  obtain ⟨k, hk, rfl⟩ := List.mem_map.1 hf
  obtain ⟨A, hA⟩ := h.item
  obtain ⟨a, A', _, g, hkey⟩ := (hI.array _ _ hA).holds hL
  obtain ⟨fk, hfk⟩ := (hI.array _ _ hA).facts hL
  have ff := hfk _ h.object e.1.data h.typed
  obtain ⟨c, y, h1, h2, h3⟩ := h.keys k hk
  have e1 : e.1.data.base.shape = e.1.item.shape := ff.shape
  have e2 : e.1.data.fileShape = e.1.part := ff.part
  rw [e1, e2] at h2
  obtain ⟨j, j1, j2⟩ := g.holds.document
  have hp : a.part = e.1.part := Container.part_getD (x := { e.1.item with content := A }) g.is.chunks g.is.shards
  refine ⟨c, y, h1, h2, _, a, j, hA, g.is, j1, j2, ?_, ?_⟩
  · rw [hp, show a.shape = e.1.item.shape from g.is.shape]
    exact inGrid_of_inChunk h2
  · have := (hkey _ h.object e.1.data h.typed).2 c
    rw [FileJob.file, ← this, ← h3]

/-- on the way to the file of a task there is no document -/
theorem ReadyAs.way (hI : C.Inv L T os σ) {e : WriteJob Ty × List (Key × Prog Unit)} (h : ReadyAs e L T os) {f : FileJob Unit}
    (hf : f ∈ fileJobs C e) {p : Path} {n : String} (hp : T p ≠ none) (hn : MetaName n) : ¬ C.root ++ p ++ [n] <+: f.file := by
  obtain ⟨k, hk, rfl⟩ := List.mem_map.1 hf
  intro hpre
  obtain ⟨A, hA⟩ := h.item
  have hpre : C.root ++ p ++ [n] <+: chunkFile (C.root ++ e.1.path) k.1 := hpre
  have hne : ¬ PlainName n := metaName_iff.1 hn
  rcases List.prefix_or_prefix_of_prefix hpre (show C.root ++ e.1.path <+: chunkFile (C.root ++ e.1.path) k.1 from List.prefix_append _ _) with g | g
  · rw [List.append_assoc] at g
    exact hne (hI.names p n (hI.some_above (by rw [hA]; exact fun e => by cases e) (Container.append_prefix.1 g)))
  · have hg := g
    rw [List.append_assoc] at g
    rcases prefix_concat_iff.1 (Container.append_prefix.1 g) with g' | g'
    · have : e.1.path = p := Classical.byContradiction fun hne => hp (hI.leaf hA g' hne)
      subst this
      exact (h.keys k hk).isKey.ne_meta hn hpre hg rfl
    · exact hne (hI.names p n (by rw [← g', hA]; exact fun e => by cases e))

end WriteJob
end Z5
