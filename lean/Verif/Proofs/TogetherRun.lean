import Verif.Proofs.TogetherJobs

/-!
# Running the calls one after the other (for C88)
-/

namespace Z5
open Spec Prog

variable {Ty : ElemTypes} {C : Container} {L : Libs} {T : Tree Ty} {os : List (Path × DatasetObj)} {σ σ' : Fs}

/-- the tasks with their files -/
def WriteJob.fileJobs (C : Container) (e : WriteJob Ty × List (Key × Prog Unit)) : List (FileJob Unit) :=
  e.2.map fun k => ⟨C.root ++ e.1.path, e.1.data.base.key.nested, k.1, k.2⟩

/-- a call and its tasks with their keys, whatever the elements of the array are now -/
structure WriteJob.ReadyAs (e : WriteJob Ty × List (Key × Prog Unit)) (L : Libs) (T : Tree Ty) (os : List (Path × DatasetObj)) :
    Prop where
  object : (e.1.path, e.1.obj) ∈ os
  item : ∃ A, T e.1.path = some (.array { e.1.item with content := A })
  mode : e.1.obj.handle.mode ≠ .r
  typed : e.1.obj.typed L (Ty.cast e.1.item.dtype) = .ok e.1.data
  starts : e.1.data.Starts e.1.write e.1.tasks
  tasks : e.1.tasks = e.2.map Prod.snd
  jobs : JobsOk e.2
  keys : ∀ k ∈ e.2, e.1.data.Touched e.1.write.off e.1.write.shape k.1

namespace WriteJob

theorem onFiles_eq {e : WriteJob Ty × List (Key × Prog Unit)} (h : ReadyAs e L T os) :
    e.1.onFiles C = (fileJobs C e).map FileJob.task := by
  unfold onFiles AnyDataset.onFiles fileJobs
  rw [h.tasks, List.map_map, List.map_map]
  rfl

theorem facts (hL : L.Lawful) (hI : C.Inv L T os σ) (p : Path) : ∃ fk, ∀ e : WriteJob Ty × List (Key × Prog Unit), e.1.path = p →
    ReadyAs e L T os → ArrayFacts C p e.1.item σ fk e.1.obj e.1.data := by
  by_cases h : ∃ x, T p = some (.array x)
  · obtain ⟨x, hx⟩ := h
    obtain ⟨fk, hf⟩ := (hI.array p x hx).facts hL
    refine ⟨fk, ?_⟩
    rintro e rfl hr
    obtain ⟨A, hA⟩ := hr.item
    rw [hx] at hA
    have e1 : x = { e.1.item with content := A } := by injection hA with hA; injection hA
    subst e1
    have f := hf e.1.obj hr.object e.1.data hr.typed
    exact ⟨f.wf, f.plain, f.mode, f.shape, f.part, f.keys, f.tidy⟩
  · refine ⟨fun _ => [], ?_⟩
    rintro e rfl hr
    obtain ⟨A, hA⟩ := hr.item
    exact absurd ⟨_, hA⟩ h

theorem ReadyAs.fits (hL : L.Lawful) (hI : C.Inv L T os σ) {e : WriteJob Ty × List (Key × Prog Unit)} (h : ReadyAs e L T os) :
    ∀ f ∈ fileJobs C e, f.Fits σ := by
  obtain ⟨fk, hf⟩ := facts hL hI e.1.path
  have F := hf e rfl h
  intro f hf
  obtain ⟨k, hk, rfl⟩ := List.mem_map.1 hf
  have hkey := (h.keys k hk).isKey
  exact ⟨h.jobs.touches k hk, fun hn => (AnyDataset.keysFit F.plain).flat hn _ hkey, F.tidy.mono (by rintro _ rfl; exact hkey)⟩

theorem ReadyAs.self_apart (hL : L.Lawful) (hI : C.Inv L T os σ) {e : WriteJob Ty × List (Key × Prog Unit)} (h : ReadyAs e L T os) :
    (fileJobs C e).Pairwise FileJob.Apart := by
  obtain ⟨fk, hf⟩ := facts hL hI e.1.path
  have F := hf e rfl h
  unfold fileJobs
  rw [List.pairwise_map]
  have := h.jobs.nodup
  unfold List.Nodup at this
  rw [List.pairwise_map] at this
  refine this.imp_of_mem fun {a b} ha hb hne => ?_
  have hl := (AnyDataset.keysFit F.plain).level _ _ (h.keys a ha).isKey (h.keys b hb).isKey
  exact ⟨fun hp => hne (chunkFile_prefix hl hp), fun hp => hne (chunkFile_prefix hl.symm hp).symm⟩

theorem leaf_apart (hI : C.Inv L T os σ) {p q : Path} {x y : ArrayItem Ty} (hx : T p = some (.array x)) (hy : T q = some (.array y))
    (hne : p ≠ q) {a b : Path} (ha : C.root ++ p <+: a) (hb : C.root ++ q <+: b) : ¬ a <+: b := by
  intro hab
  have h1 := ha.trans hab
  rcases List.prefix_or_prefix_of_prefix h1 hb with h | h
  · have := hI.leaf hx (Container.append_prefix.1 h) hne
    rw [hy] at this; cases this
  · have := hI.leaf hy (Container.append_prefix.1 h) (Ne.symm hne)
    rw [hx] at this; cases this

theorem ReadyAs.apart (hL : L.Lawful) (hI : C.Inv L T os σ) {d e : WriteJob Ty × List (Key × Prog Unit)} (hd : ReadyAs d L T os)
    (he : ReadyAs e L T os) (hap : d.1.Apart e.1) : ∀ f ∈ fileJobs C d, ∀ g ∈ fileJobs C e, f.Apart g := by
  intro f hf g hg
  obtain ⟨k, hk, rfl⟩ := List.mem_map.1 hf
  obtain ⟨l, hl, rfl⟩ := List.mem_map.1 hg
  obtain ⟨A, hA⟩ := hd.item
  obtain ⟨B, hB⟩ := he.item
  by_cases hp : d.1.path = e.1.path
  · obtain ⟨fk, hfk⟩ := facts hL hI e.1.path
    have F := hfk d hp hd
    have G := hfk e rfl he
    obtain ⟨c, x, h1, h2, h3⟩ := hd.keys k hk
    obtain ⟨c', y, g1, g2, g3⟩ := he.keys l hl
    rw [hp, hB] at hA
    have hitem : ({ e.1.item with content := B } : ArrayItem Ty) = { d.1.item with content := A } := by
      injection hA with hA; injection hA
    have es : e.1.item.shape = d.1.item.shape := by have := congrArg (fun i : ArrayItem Ty => i.shape) hitem; exact this
    have ec : e.1.item.chunks = d.1.item.chunks := by have := congrArg (fun i : ArrayItem Ty => i.chunks) hitem; exact this
    have eh : e.1.item.shards = d.1.item.shards := by have := congrArg (fun i : ArrayItem Ty => i.shards) hitem; exact this
    have g2 : InChunk d.1.data.base.shape d.1.data.fileShape c' y := by
      rw [F.shape, F.part, ← es, ← ec, ← eh, ← G.shape, ← G.part]
      exact g2
    have g3 : l.1 = d.1.data.fileKey c' := by rw [g3, G.keys, F.keys]
    have hne : k.1 ≠ l.1 := by
      intro hkl
      have := F.wf.fileKey_inj (inGrid_of_inChunk h2) (inGrid_of_inChunk g2) (by rw [← h3, ← g3, hkl])
      subst this
      refine hap hp c x y h1 g1 ?_ ?_
      · rw [part, ← F.shape, ← F.part]; exact h2
      · rw [part, ← F.shape, ← F.part]; exact g2
    have hlev := (AnyDataset.keysFit F.plain).level _ _ (hd.keys k hk).isKey ⟨c', inGrid_of_inChunk g2, g3⟩
    constructor
    · intro hpre
      exact hne (chunkFile_prefix (p := C.root ++ d.1.path) hlev (by
        have := hpre
        unfold FileJob.file at this
        simp only [← hp] at this
        exact this))
    · intro hpre
      exact hne (chunkFile_prefix (p := C.root ++ d.1.path) hlev.symm (by
        have := hpre
        unfold FileJob.file at this
        simp only [← hp] at this
        exact this)).symm
  · exact ⟨leaf_apart hI hA hB hp (List.prefix_append _ _) (List.prefix_append _ _),
      leaf_apart hI hB hA (Ne.symm hp) (List.prefix_append _ _) (List.prefix_append _ _)⟩

theorem all_fits (hL : L.Lawful) (hI : C.Inv L T os σ) {l : List (WriteJob Ty × List (Key × Prog Unit))}
    (h : ∀ e ∈ l, ReadyAs e L T os) : ∀ f ∈ l.flatMap (fileJobs C), f.Fits σ := by
  intro f hf
  obtain ⟨e, he, hf⟩ := List.mem_flatMap.1 hf
  exact (h e he).fits hL hI f hf

theorem all_apart (hL : L.Lawful) (hI : C.Inv L T os σ) : ∀ {l : List (WriteJob Ty × List (Key × Prog Unit))},
    (∀ e ∈ l, ReadyAs e L T os) → l.Pairwise (fun d e => d.1.Apart e.1) → (l.flatMap (fileJobs C)).Pairwise FileJob.Apart
  | [], _, _ => .nil
  | e :: l, h, hp => by
    have hp' := List.pairwise_cons.1 hp
    have h' := fun e he => h e (List.mem_cons_of_mem _ he)
    rw [List.flatMap_cons, List.pairwise_append]
    refine ⟨(h e (List.mem_cons_self ..)).self_apart hL hI, all_apart hL hI h' hp'.2, fun f hf g hg => ?_⟩
    obtain ⟨e', he', hg⟩ := List.mem_flatMap.1 hg
    exact (h e (List.mem_cons_self ..)).apart hL hI (h' e' he') (hp'.1 e' he') f hf g hg

theorem item_with {x y : ArrayItem Ty} {A : List Nat → (Ty.elem x.dtype).T} {B : List Nat → (Ty.elem y.dtype).T}
    (h : ({ x with content := A } : ArrayItem Ty) = { y with content := B }) (A' : List Nat → (Ty.elem x.dtype).T) :
    ∃ B', ({ x with content := A' } : ArrayItem Ty) = { y with content := B' } := by
  cases x with
  | mk d1 s1 c1 h1 f1 t1 a1 =>
    cases y with
    | mk d2 s2 c2 h2 f2 t2 a2 =>
      simp only [ArrayItem.mk.injEq] at h
      obtain ⟨rfl, rfl, rfl, rfl, h5, _, rfl⟩ := h
      cases h5
      exact ⟨A', rfl⟩

/-- **The calls one after the other.** -/
theorem sequential (hL : L.Lawful) : ∀ {l : List (WriteJob Ty × List (Key × Prog Unit))} {T : Tree Ty} {σ : Fs},
    History C L Ty T os σ → (∀ e ∈ l, ReadyAs e L T os) → l.Pairwise (fun d e => d.1.Apart e.1) →
    (∀ f ∈ l.flatMap (fileJobs C), (exec1 f.prog (f.content σ)).1 = .ok ()) →
    ∃ σ' T', Done (l.flatMap (fileJobs C)) σ σ' ∧ History C L Ty T' os σ' ∧
      (∀ p, (∀ e ∈ l, e.1.path ≠ p) → T' p = T p) ∧
      (∀ p x, T p = some (.array x) → ∃ A, T' p = some (.array { x with content := A }) ∧
        ∀ y, (∀ e ∈ l, e.1.path = p → ¬ InRegion y e.1.write.off e.1.write.shape) → A y = x.content y) ∧
      ∀ e ∈ l, ∀ A, T' e.1.path = some (.array { e.1.item with content := A }) →
        ∀ y, InBox y e.1.item.shape → InRegion y e.1.write.off e.1.write.shape → A y = e.1.write.val (subV y e.1.write.off)
  | [], T, σ, h, _, _, _ => by
    refine ⟨σ, T, ⟨?_, ?_, fun _ _ _ => rfl⟩, h, fun _ _ => rfl, fun p x hx => ⟨x.content, hx, fun _ _ => rfl⟩,
      fun e he => by cases he⟩
    · intro j hj
      cases hj
    · rintro r _ ⟨j, hj, _⟩
      cases hj
  | e :: l, T, σ, h, hr, hp, hok => by
    have hI := Container.inv_of_history hL h
    have hp' := List.pairwise_cons.1 hp
    have hr0 := hr e (List.mem_cons_self ..)
    have hr' := fun e he => hr e (List.mem_cons_of_mem _ he)
    rw [List.flatMap_cons] at hok
    have hfit := hr0.fits hL hI
    have hself := hr0.self_apart hL hI
    have hcross : ∀ j ∈ fileJobs C e, ∀ k ∈ l.flatMap (fileJobs C), j.Apart k := by
      intro f hf g hg
      obtain ⟨e', he', hg⟩ := List.mem_flatMap.1 hg
      exact hr0.apart hL hI (hr' e' he') (hp'.1 e' he') f hf g hg
    -- the first call
    obtain ⟨is, rs, hfin⟩ := FsProg.exists_finished ((fileJobs C e).map FileJob.task, σ)
    obtain ⟨hrs, hdone⟩ := done_of_finished hI.wf hfit hself hfin
    obtain ⟨σ₁, hσ₁⟩ : ∃ σ₁, σ₁ = (FsProg.interleave is ((fileJobs C e).map FileJob.task, σ)).2 := ⟨_, rfl⟩
    rw [← hσ₁] at hdone
    have hcomp : e.1.data.Completes (C.root ++ e.1.path) e.1.tasks is σ σ₁ := by
      have heq : e.1.data.onFiles (C.root ++ e.1.path) e.1.tasks = (fileJobs C e).map FileJob.task := onFiles_eq (C := C) hr0
      refine ⟨rs, by rw [heq]; exact hfin, ?_, by rw [heq]; exact hσ₁⟩
      rw [hrs]
      intro r hr
      obtain ⟨f, hf, rfl⟩ := List.mem_map.1 hr
      exact hok f (List.mem_append_left _ hf)
    obtain ⟨A, hA⟩ := hr0.item
    have h1 := History.wrote h hr0.object hA hr0.mode hr0.typed (hr0.starts.performs hcomp)
    obtain ⟨fk, hfk⟩ := facts hL hI e.1.path
    have F := hfk e rfl hr0
    obtain ⟨A₁, hA₁⟩ : ∃ A₁, A₁ = override A e.1.write.off e.1.write.shape e.1.write.val := ⟨_, rfl⟩
    have h1 : History C L Ty (T.put e.1.path (.array { e.1.item with content := A₁ })) os σ₁ := by rw [hA₁]; exact h1
    obtain ⟨T₁, hT₁⟩ : ∃ T₁, T₁ = T.put e.1.path (.array { e.1.item with content := A₁ }) := ⟨_, rfl⟩
    rw [← hT₁] at h1
    have put_same : T₁ e.1.path = some (.array { e.1.item with content := A₁ }) := by rw [hT₁]; simp [Tree.put]
    have put_other : ∀ q, q ≠ e.1.path → T₁ q = T q := fun q hq => by rw [hT₁]; simp [Tree.put, hq]
    -- the others
    have hready : ∀ e' ∈ l, ReadyAs e' L T₁ os := by
      intro e' he'
      have g := hr' e' he'
      refine { g with item := ?_ }
      obtain ⟨B, hB⟩ := g.item
      by_cases hq : e'.1.path = e.1.path
      · rw [hq] at hB ⊢
        rw [hA] at hB
        have heq : ({ e.1.item with content := A } : ArrayItem Ty) = { e'.1.item with content := B } := by
          injection hB with hB; injection hB
        obtain ⟨B', hB'⟩ := item_with heq A₁
        exact ⟨B', by rw [put_same, hB']⟩
      · exact ⟨B, by rw [put_other _ hq]; exact hB⟩
    have hok' : ∀ f ∈ l.flatMap (fileJobs C), (exec1 f.prog (f.content σ₁)).1 = .ok () := by
      intro f hf
      have : f.content σ₁ = f.content σ := congrArg contentOf (hdone.other fun j hj => hcross j hj f hf)
      rw [this]
      exact hok f (List.mem_append_right _ hf)
    obtain ⟨σ', T', k1, k2, k3, k4, k5⟩ := sequential hL h1 hready hp'.2 hok'
    refine ⟨σ', T', by rw [List.flatMap_cons]; exact hdone.append hcross k1, k2, ?_, ?_, ?_⟩
    · intro p hpp
      rw [k3 p fun e' he' => hpp e' (List.mem_cons_of_mem _ he'), put_other p (fun e' => hpp e (List.mem_cons_self ..) e'.symm)]
    · intro p x hx
      by_cases hq : p = e.1.path
      · subst hq
        have e1 : x = { e.1.item with content := A } := by rw [hx] at hA; injection hA with hA; injection hA
        subst e1
        obtain ⟨A₂, g1, g2⟩ := k4 _ _ put_same
        refine ⟨A₂, g1, fun y hy => ?_⟩
        rw [g2 y fun e' he' => hy e' (List.mem_cons_of_mem _ he')]
        show A₁ y = A y
        rw [hA₁, override, if_neg (hy e (List.mem_cons_self ..) rfl)]
      · obtain ⟨A₂, g1, g2⟩ := k4 p x (by rw [put_other p hq]; exact hx)
        exact ⟨A₂, g1, fun y hy => g2 y fun e' he' => hy e' (List.mem_cons_of_mem _ he')⟩
    · intro e' he'
      rcases List.mem_cons.1 he' with rfl | he'
      · intro A' hA' y hy hreg
        obtain ⟨A₂, g1, g2⟩ := k4 _ _ put_same
        rw [hA'] at g1
        have e1 : A' = A₂ := by
          injection g1 with g1; injection g1 with g1
          exact eq_of_heq (ArrayItem.mk.inj g1).2.2.2.2.2.1
        rw [e1, g2 y ?_]
        · show A₁ y = _
          rw [hA₁, override, if_pos hreg]
        · intro e'' he'' hpath hreg'
          obtain ⟨c, hc⟩ := F.wf.exists_part (y := y) (by rw [F.shape]; exact hy)
          have hc : InChunk e'.1.item.shape e'.1.part c y := by rw [part, ← F.shape, ← F.part]; exact hc
          exact hp'.1 e'' he'' hpath.symm c y y hreg hreg' hc hc
      · exact k5 e' he'

end WriteJob
end Z5
