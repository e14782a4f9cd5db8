import Verif.Spec.S3Crash
import Verif.Proofs.S3Crash
import Verif.Proofs.ArrayMix

/-!
# A container on S3 after an interrupted call (for C91)
-/

namespace Z5
open Spec Prog Props

variable {Ty : ElemTypes} {C : S3Container} {L : Libs} {T T₁ : Tree Ty} {os : List (Path × S3DatasetObj)} {b b₁ b' : Bucket}

/-- Bytes for a bucket whose documents are those of one that has bytes -/
theorem RawBucket.Stores.exists_ {R₀ : RawBucket} (h : R₀.Stores b) (hw : b'.WF)
    (hd : ∀ k j, b'.get k = some (.doc j) → b.get k = some (.doc j)) :
    ∃ R : RawBucket, R.Stores b' ∧ R.Pairwise fun p q => keyLt p.1 q.1 = true := by
  obtain ⟨f, hf⟩ : ∃ f : Key × S3Obj → Key × Bytes, f = fun p => (p.1, match p.2 with
    | .file bytes => bytes
    | .doc _ => (R₀.content p.1).getD []) := ⟨_, rfl⟩
  have hf1 : ∀ p, (f p).1 = p.1 := fun p => by rw [hf]
  refine ⟨b'.map f, fun k => ?_, ?_⟩
  · have hc : RawBucket.content (b'.map f) k = (b'.get k).map fun o => (f (k, o)).2 := by
      unfold RawBucket.content Bucket.get
      rw [List.find?_map]
      have : ((fun p : Key × Bytes => p.1 == k) ∘ f) = fun p : Key × S3Obj => p.1 == k := funext fun p => by
        show ((f p).1 == k) = _
        rw [hf1]
      rw [this]
      cases e : List.find? (fun p : Key × S3Obj => p.1 == k) b' with
      | none => rfl
      | some y =>
        have hy : y.1 = k := by simpa using List.find?_some e
        subst hy
        rfl
    cases e : b'.get k with
    | none => rw [e] at hc; exact hc
    | some o =>
      rw [e] at hc
      cases o with
      | file bytes =>
        show RawBucket.content (b'.map f) k = some bytes
        rw [hc, hf]
        rfl
      | doc j =>
        have hs := h k
        rw [hd k j e] at hs
        obtain ⟨h1, bom, t, h2, h3, h4⟩ := hs
        refine ⟨h1, bom, t, h2, h3, ?_⟩
        rw [hc, hf]
        simp only [Option.map_some, h4, Option.getD_some]
  · rw [List.pairwise_map]
    exact hw.imp fun {p q} h => by rw [hf1, hf1]; exact h

/-- tasks on objects make no documents -/
theorem Prog.interleaveObjects_docs {α : Type} : ∀ (is : List Nat) (ts : List (Prog α)) (b : Bucket) {k : Key} {j : Json},
    (interleaveObjects is (ts, b)).2.get k = some (.doc j) → b.get k = some (.doc j)
  | [], _, _, _, _, h => h
  | i :: is, ts, b, k, j, h => by
    rw [interleaveObjects] at h
    have h := interleaveObjects_docs is _ _ h
    unfold stepObjects at h
    split at h
    · simp only [Bucket.onObject] at h
      split at h
      · exact h
      · rename_i q f _ _ _
        split at h
        · by_cases e : k = q
          · subst e
            rw [get_put_self] at h
            cases h
          · rw [get_put_ne e] at h
            exact h
        · by_cases e : k = q
          · subst e
            rw [get_erase_self] at h
            cases h
          · rw [get_erase (by simpa using e)] at h
            exact h
    · exact h

namespace S3Container

/-- an array between two states -/
theorem ArrayHolds.between {p : Path} {x : ArrayItem Ty} {B A₀ A₁ : List Nat → (Ty.elem x.dtype).T} {a₀ a₁ : ArrayDesc}
    (h₀ : C.ArrayHolds L b p x a₀ A₀) (h₁ : C.ArrayHolds L b₁ p { x with content := B } a₁ A₁)
    (hd₁ : ∀ n, MetaName n → b₁.get (docKey (C.key p) n) = b.get (docKey (C.key p) n))
    (hd' : ∀ n, MetaName n → b'.get (docKey (C.key p) n) = b.get (docKey (C.key p) n))
    (hc : ∀ k, b'.get k = b.get k ∨ b'.get k = b₁.get k) :
    ∃ A, C.ArrayHolds L b' p x a₀ A ∧ ∀ c, (∀ y, InChunk x.shape (x.shards.getD x.chunks) c y → A y = A₀ y) ∨
      ∀ y, InChunk x.shape (x.shards.getD x.chunks) c y → A y = A₁ y := by
  have hsup₁ : a₁.Supported C.layout (Ty.elem x.dtype).size := h₁.is.supported
  obtain ⟨j, j1, j2⟩ := h₀.holds.document
  obtain ⟨j', j1', j2'⟩ := h₁.holds.document
  have hjj : j' = j := by
    rw [← docKey_named h₀.holds.named, hd₁ _ (datasetFile_meta _), docKey_named h₀.holds.named, j1] at j1'
    cases j1'
    rfl
  subst hjj
  obtain ⟨u1, u2, u3, u4, u5⟩ := Layout.Says.unique j2' j2 hsup₁ h₀.is.supported
  have e₁ : a₁.IsStored C.layout (Ty.elem x.dtype) (L.codec (Ty.elem x.dtype).size a₁.compression) x.fill (b₁.chunks (C.key p)) A₁ :=
    h₁.holds.elements
  rw [u1] at e₁
  obtain ⟨A, g1, g2⟩ := h₀.holds.elements.mix j2.noShards h₀.is.supported (e₁.described u2 u3 u4 u5) (σ := b'.chunks (C.key p)) fun c _ => by
    unfold Bucket.chunks
    rcases hc (chunkObject (C.key p) (a₀.fileName C.layout c)) with e | e
    · exact .inl (by rw [e])
    · exact .inr (by rw [e])
  refine ⟨A, ⟨h₀.real, h₀.is, h₀.holds.docs hd' g1, h₀.kind.congr hd', h₀.node.congr hd', ?_, ?_⟩, ?_⟩
  · rw [Bucket.attributes_congr hd']; exact h₀.attrs
  · rw [hd' _ layout_file_meta]; exact h₀.full
  · rw [← Container.part_getD h₀.is.chunks h₀.is.shards, ← h₀.is.shape]
    exact fun c => (g2 c).imp id And.right

/-- the bucket is between two of the container -/
theorem Inv.between (hL : L.Lawful) (hC : C.Ok) (h : C.Inv L T os b) (h₁ : C.Inv L T₁ os b₁)
    (hsame : ∀ p, (∀ x, T p ≠ some (.array x)) → T₁ p = T p)
    (harr : ∀ p x, T p = some (.array x) → ∃ B, T₁ p = some (.array { x with content := B }))
    (hd₁ : ∀ p n, T p ≠ none → MetaName n → b₁.get (docKey (C.key p) n) = b.get (docKey (C.key p) n))
    (hd' : ∀ p n, T p ≠ none → MetaName n → b'.get (docKey (C.key p) n) = b.get (docKey (C.key p) n))
    (hc : ∀ k, b'.get k = b.get k ∨ b'.get k = b₁.get k) {R : RawBucket} (hR : R.Stores b')
    (hO : R.Pairwise fun p q => keyLt p.1 q.1 = true) : ∃ T', T.Between T₁ T' ∧ R.HoldsContainer C L T' := by
  have hnone : ∀ p, T₁ p ≠ none → T p ≠ none := by
    intro p hp e
    refine hp ?_
    rw [hsame p (by rw [e]; exact fun _ e => by cases e)]
    exact e
  obtain ⟨T', k1, k2⟩ := bytes_of (L := L) (T := T) (b := b') hC h.top h.closed h.names
    (fun p A hA => (h.group p A hA).congr fun n hn => hd' p n (by rw [hA]; exact fun e => by cases e) hn)
    (fun p hp r hr => by
      rw [mem_keys] at hr
      rcases hc (C.dir p ++ r) with e | e
      · exact h.known p hp r (mem_keys.2 (by rw [← e]; exact hr))
      · have hp₁ : T₁.IsGroup p := by
          obtain ⟨A, hA⟩ := hp
          exact ⟨A, by rw [hsame p (by rw [hA]; exact fun _ e => by cases e)]; exact hA⟩
        exact (h₁.known p hp₁ r (mem_keys.2 (by rw [← e]; exact hr))).imp id fun ⟨n, t, g1, g2⟩ => ⟨n, t, hnone _ g1, g2⟩)
    (Q := fun p x A => ∃ B, T₁ p = some (.array { x with content := B }) ∧
      ∀ c, (∀ y, InChunk x.shape (x.shards.getD x.chunks) c y → SameOrFill (Ty.elem x.dtype).ceq x.fill (A y) (x.content y)) ∨
        ∀ y, InChunk x.shape (x.shards.getD x.chunks) c y → SameOrFill (Ty.elem x.dtype).ceq x.fill (A y) (B y))
    (fun p x hx => by
      have hname := S3WriteJob.array_name h hx
      obtain ⟨B, hB⟩ := harr p x hx
      have hp : T p ≠ none := by rw [hx]; exact fun e => by cases e
      obtain ⟨a₀, A₀, s₀, g₀⟩ := (h.array p x hx).holds hL hname
      obtain ⟨a₁, A₁, s₁, g₁⟩ := (h₁.array p _ hB).holds hL hname
      obtain ⟨A, m1, m2⟩ := g₀.between g₁ (fun n hn => hd₁ p n hp hn) (fun n hn => hd' p n hp hn) hc
      refine ⟨a₀, A, ⟨B, hB, fun c => (m2 c).imp (fun e y hy => ?_) fun e y hy => ?_⟩, m1⟩
      · rw [e y hy]; exact s₀ y (inBox_of_inChunk hy)
      · rw [e y hy]; exact s₁ y (inBox_of_inChunk hy))
    hR hO
  refine ⟨T', fun p => ?_, k2⟩
  have := k1 p
  cases e : T p with
  | none =>
    rw [e] at this
    exact ⟨by rw [hsame p (by rw [e]; exact fun _ e => by cases e)]; exact e, this⟩
  | some i =>
    rw [e] at this
    cases i with
    | group A => exact ⟨by rw [hsame p (by rw [e]; exact fun _ e => by cases e)]; exact e, this⟩
    | array x =>
      obtain ⟨A, h1, B, h2, h3⟩ := this
      exact ⟨B, A, h2, h1, h3⟩

end S3Container

namespace S3WriteJob

/-- the objects of tasks are no documents of nodes -/
theorem docs_apart (hI : C.Inv L T os b) {e : S3WriteJob Ty × List (Key × Prog Unit)} (he : ReadyAs e L T os) {f : Key × Prog Unit}
    (hf : f ∈ objJobs C e) {p : Path} {n : String} (hp : T p ≠ none) (hn : MetaName n) : docKey (C.key p) n ≠ f.1 := by
  obtain ⟨k, hk, rfl⟩ := List.mem_map.1 hf
  intro heq
  have heq : docKey (C.key p) n = chunkObject (C.key e.1.path) k.1 := heq
  obtain ⟨A, hA⟩ := he.item
  have np := hI.named hp
  have ne := hI.named (p := e.1.path) (by rw [hA]; exact fun e => by cases e)
  have hpre : C.dir e.1.path <+: docKey (C.key p) n := by
    rw [heq, ← S3Container.dirPrefix_key ne]
    exact dirPrefix_chunk _ _
  have hle := S3Container.meta_below np ne hn hpre
  have : e.1.path = p := Classical.byContradiction fun hne => hp (hI.leaf hA hle hne)
  subst this
  obtain ⟨c, x, _, h2, h3⟩ := he.keys k hk
  exact chunk_ne_doc (d := e.1.data) ⟨c, inGrid_of_inChunk h2, h3⟩ hn heq

theorem oneStep (hL : L.Lawful) (hI : C.Inv L T os b) {e : S3WriteJob Ty × List (Key × Prog Unit)} (he : ReadyAs e L T os) :
    ∀ f ∈ objJobs C e, OneStep f.2 := by
  intro f hf
  obtain ⟨k, hk, rfl⟩ := List.mem_map.1 hf
  obtain ⟨fk, F⟩ := facts hL hI e.1.path
  exact oneStep_onObjects _ (he.starts.oneStep (S3DatasetObj.typed_backend he.typed) (F e rfl he).wf k.2 (by
    rw [he.tasks]
    exact List.mem_map.2 ⟨k, hk, rfl⟩))

end S3WriteJob
end Z5
