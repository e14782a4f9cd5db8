import Verif.Spec.S3Together
import Verif.Proofs.S3Together
import Verif.Proofs.TogetherRun
import Verif.Proofs.S3ContainerBytes
import Verif.Proofs.S3ContainerHist

/-!
# Running the calls on a container on S3 one after the other (for C89)
-/

namespace Z5
open Spec Prog

variable {Ty : ElemTypes} {C : S3Container} {L : Libs} {T : Tree Ty} {os : List (Path × S3DatasetObj)} {b b' : Bucket}

/-! ### What the objects of an array have in common -/

structure S3ArrayFacts (x : ArrayItem Ty) (fk : List Nat → Key) (d : AnyDataset (Ty.elem x.dtype)) : Prop where
  wf : d.WF
  shape : d.base.shape = x.shape
  part : d.fileShape = x.shards.getD x.chunks
  keys : ∀ c, d.fileKey c = fk c

theorem S3Container.ArrayAt.facts (hL : L.Lawful) {p : Path} {x : ArrayItem Ty} (hname : C.key p ≠ []) (h : C.ArrayAt L os b p x) :
    ∃ fk : List Nat → Key, ∀ o, (p, o) ∈ os → ∀ d, o.typed L (Ty.cast x.dtype) = .ok d → S3ArrayFacts x fk d := by
  rcases h with ⟨o₀, d₀, os', ws, h⟩ | ⟨b₀, a, A₀, os', ws, h⟩
  · have hsup : ∀ a f, Stated L (Ty.cast x.dtype) o₀.obj d₀ a f → a.Supported o₀.obj.layout (Ty.elem x.dtype).size := by
      intro a f s
      rw [h.is.layout]
      exact h.is.supported a s.shape s.chunks s.shards s.separator
    obtain ⟨a, f, s, _⟩ := h.sessions.stated hname (h.is.law hL) h.is.desc h.is.typed h.is.wf hsup
    obtain ⟨m, cfg, h1, _, h2, h3⟩ := h.sessions.carries (h.is.law hL) h.is.desc h.is.typed h.is.wf
    refine ⟨d₀.fileKey, fun o ho d hd => ?_⟩
    obtain ⟨t1, t2, t3, t4⟩ := (h3 o (h.objects o ho)).2.typed h1.self h1.shard (h.is.law hL) h.is.typed
    have hd := Res.ok.inj (t1.symm.trans hd)
    subst hd
    refine ⟨AnyDataset.variant_wf t2 h.is.wf, ?_, ?_, fun c => ?_⟩
    · rw [AnyDataset.variant_base, ← h.is.shape, ← t3]; rfl
    · rw [← Container.part_getD (a := a) (s.chunks.trans h.is.chunks) (by rw [s.shards]; exact h.is.sharding), ← s.part]
      cases d₀ <;> rfl
    · unfold AnyDataset.fileKey
      rw [AnyDataset.variant_base]
      exact t2.keys c
  · obtain ⟨f, v, e⟩ := h.now hL
    refine ⟨a.fileName C.layout, fun o ho d hd => ?_⟩
    obtain ⟨d', g⟩ := e.objects o (h.objects o ho)
    have := g.stands.typed
    rw [hd] at this
    cases this
    exact ⟨g.stands.wf, g.stands.base.1.trans h.is.shape, g.part.trans (Container.part_getD h.is.chunks h.is.shards),
      fun c => congrFun g.names c⟩

/-- the tasks with their objects -/
def S3WriteJob.objJobs (C : S3Container) (e : S3WriteJob Ty × List (Key × Prog Unit)) : List (Key × Prog Unit) :=
  e.2.map fun k => (chunkObject (C.key e.1.path) k.1, k.2.onObjects (C.key e.1.path))

/-- a call and its tasks with their keys, whatever the elements of the array are now -/
structure S3WriteJob.ReadyAs (e : S3WriteJob Ty × List (Key × Prog Unit)) (L : Libs) (T : Tree Ty)
    (os : List (Path × S3DatasetObj)) : Prop where
  object : (e.1.path, e.1.obj) ∈ os
  item : ∃ A, T e.1.path = some (.array { e.1.item with content := A })
  mode : e.1.obj.obj.handle.mode ≠ .r
  typed : e.1.obj.typed L (Ty.cast e.1.item.dtype) = .ok e.1.data
  starts : e.1.data.Starts e.1.write e.1.tasks
  tasks : e.1.tasks = e.2.map Prod.snd
  jobs : JobsOk e.2
  keys : ∀ k ∈ e.2, e.1.data.Touched e.1.write.off e.1.write.shape k.1

theorem AnyDataset.Starts.performsS3 {E : Elem} {d : AnyDataset E} {w : Write E.T} {ts : List (Prog Unit)} (hs : d.Starts w ts)
    {name : Key} {is : List Nat} (hc : AnyDataset.CompletesS3 name ts is b b') : d.PerformsS3 name w b b' := by
  cases hs with
  | region call val scratch _ hv hval hts => exact .region call val scratch ts is hv hval hts hc
  | chunk c data val h hl hval => exact .chunk c data val is h hl hval hc
  | remove c h => exact .remove c is h hc

namespace S3WriteJob

theorem onObjects_eq {e : S3WriteJob Ty × List (Key × Prog Unit)} (h : ReadyAs e L T os) :
    e.1.onObjects C = (objJobs C e).map Prod.snd := by
  unfold onObjects objJobs
  rw [h.tasks, List.map_map, List.map_map]
  rfl

theorem array_name (hI : C.Inv L T os b) {p : Path} {x : ArrayItem Ty} (hx : T p = some (.array x)) : C.key p ≠ [] := by
  have hn := hI.named (p := p) (by rw [hx]; exact fun e => by cases e)
  refine S3Container.key_ne_nil ?_ hn
  rintro rfl
  obtain ⟨A, hA⟩ := hI.top
  rw [hx] at hA
  cases hA

theorem facts (hL : L.Lawful) (hI : C.Inv L T os b) (p : Path) : ∃ fk, ∀ e : S3WriteJob Ty × List (Key × Prog Unit), e.1.path = p →
    ReadyAs e L T os → S3ArrayFacts e.1.item fk e.1.data := by
  by_cases h : ∃ x, T p = some (.array x)
  · obtain ⟨x, hx⟩ := h
    obtain ⟨fk, hf⟩ := (hI.array p x hx).facts hL (array_name hI hx)
    refine ⟨fk, ?_⟩
    rintro e rfl hr
    obtain ⟨A, hA⟩ := hr.item
    rw [hx] at hA
    have e1 : x = { e.1.item with content := A } := by injection hA with hA; injection hA
    subst e1
    have f := hf e.1.obj hr.object e.1.data hr.typed
    exact ⟨f.wf, f.shape, f.part, f.keys⟩
  · refine ⟨fun _ => [], ?_⟩
    rintro e rfl hr
    obtain ⟨A, hA⟩ := hr.item
    exact absurd ⟨_, hA⟩ h

theorem ReadyAs.self_ok {e : S3WriteJob Ty × List (Key × Prog Unit)} (h : ReadyAs e L T os) : JobsOk (objJobs C e) where
  touches j hj := by
    obtain ⟨k, hk, rfl⟩ := List.mem_map.1 hj
    exact touches_onObjects (h.jobs.touches k hk)
  nodup := by
    unfold objJobs
    rw [List.map_map]
    have := h.jobs.nodup
    unfold List.Nodup at this ⊢
    rw [List.pairwise_map] at this ⊢
    exact this.imp fun hne e => hne (chunkObject_inj e)

theorem leaf_apart (hI : C.Inv L T os b) {p q : Path} {x y : ArrayItem Ty} (hx : T p = some (.array x)) (hy : T q = some (.array y))
    (hne : p ≠ q) {k : Key} (ha : dirPrefix (C.key p) <+: k) (hb : dirPrefix (C.key q) <+: k) : False := by
  have np := hI.named (p := p) (by rw [hx]; exact fun e => by cases e)
  have nq := hI.named (p := q) (by rw [hy]; exact fun e => by cases e)
  rw [S3Container.dirPrefix_key np] at ha
  rw [S3Container.dirPrefix_key nq] at hb
  rcases S3Container.dir_comparable np nq ha hb with h | h
  · have := hI.leaf hx h hne
    rw [hy] at this; cases this
  · have := hI.leaf hy h (Ne.symm hne)
    rw [hx] at this; cases this

theorem ReadyAs.apart (hL : L.Lawful) (hI : C.Inv L T os b) {d e : S3WriteJob Ty × List (Key × Prog Unit)} (hd : ReadyAs d L T os)
    (he : ReadyAs e L T os) (hap : d.1.Apart e.1) : ∀ f ∈ objJobs C d, ∀ g ∈ objJobs C e, f.1 ≠ g.1 := by
  intro f hf g hg
  obtain ⟨k, hk, rfl⟩ := List.mem_map.1 hf
  obtain ⟨l, hl, rfl⟩ := List.mem_map.1 hg
  obtain ⟨A, hA⟩ := hd.item
  obtain ⟨B, hB⟩ := he.item
  by_cases hp : d.1.path = e.1.path
  · obtain ⟨fk, hfk⟩ := facts hL hI e.1.path
    have F := hfk d hp hd
    have G := hfk e rfl he
    obtain ⟨c, x, h1, h2, h3⟩ := hd.keys k hk
    obtain ⟨c', y, g1, g2, g3⟩ := he.keys l hl
    rw [hp, hB] at hA
    have hitem : ({ e.1.item with content := B } : ArrayItem Ty) = { d.1.item with content := A } := by
      injection hA with hA; injection hA
    have es : e.1.item.shape = d.1.item.shape := by have := congrArg (fun i : ArrayItem Ty => i.shape) hitem; exact this
    have ec : e.1.item.chunks = d.1.item.chunks := by have := congrArg (fun i : ArrayItem Ty => i.chunks) hitem; exact this
    have eh : e.1.item.shards = d.1.item.shards := by have := congrArg (fun i : ArrayItem Ty => i.shards) hitem; exact this
    have g2 : InChunk d.1.data.base.shape d.1.data.fileShape c' y := by
      rw [F.shape, F.part, ← es, ← ec, ← eh, ← G.shape, ← G.part]
      exact g2
    have g3 : l.1 = d.1.data.fileKey c' := by rw [g3, G.keys, F.keys]
    intro hkl
    have hkl : k.1 = l.1 := by
      have hkl : chunkObject (C.key d.1.path) k.1 = chunkObject (C.key e.1.path) l.1 := hkl
      rw [hp] at hkl
      exact chunkObject_inj hkl
    have := F.wf.fileKey_inj (inGrid_of_inChunk h2) (inGrid_of_inChunk g2) (by rw [← h3, ← g3, hkl])
    subst this
    refine hap hp c x y h1 g1 ?_ ?_
    · rw [part, ← F.shape, ← F.part]; exact h2
    · rw [part, ← F.shape, ← F.part]; exact g2
  · intro hkl
    have hkl : chunkObject (C.key d.1.path) k.1 = chunkObject (C.key e.1.path) l.1 := hkl
    exact leaf_apart hI hA hB hp (dirPrefix_chunk _ k.1) (hkl ▸ dirPrefix_chunk _ l.1)

theorem all_ok (hL : L.Lawful) (hI : C.Inv L T os b) : ∀ {l : List (S3WriteJob Ty × List (Key × Prog Unit))},
    (∀ e ∈ l, ReadyAs e L T os) → l.Pairwise (fun d e => d.1.Apart e.1) → JobsOk (l.flatMap (objJobs C))
  | [], _, _ => ⟨fun _ h => (by cases h), List.Pairwise.nil⟩
  | e :: l, h, hp => by
    have hp' := List.pairwise_cons.1 hp
    have h' := fun e he => h e (List.mem_cons_of_mem _ he)
    have h0 := (h e (List.mem_cons_self ..)).self_ok (C := C)
    have h1 := all_ok hL hI h' hp'.2
    rw [List.flatMap_cons]
    refine ⟨fun j hj => ?_, ?_⟩
    · rcases List.mem_append.1 hj with hj | hj
      · exact h0.touches j hj
      · exact h1.touches j hj
    · rw [List.map_append, List.nodup_append]
      refine ⟨h0.nodup, h1.nodup, fun a ha c hc => ?_⟩
      obtain ⟨f, hf, rfl⟩ := List.mem_map.1 ha
      obtain ⟨g, hg, rfl⟩ := List.mem_map.1 hc
      obtain ⟨e', he', hg⟩ := List.mem_flatMap.1 hg
      exact (h e (List.mem_cons_self ..)).apart hL hI (h' e' he') (hp'.1 e' he') f hf g hg

/-- **The calls one after the other.** -/
theorem sequential (hL : L.Lawful) : ∀ {l : List (S3WriteJob Ty × List (Key × Prog Unit))} {T : Tree Ty} {b : Bucket},
    S3History C L Ty T os b → (∀ e ∈ l, ReadyAs e L T os) → l.Pairwise (fun d e => d.1.Apart e.1) →
    (∀ f ∈ l.flatMap (objJobs C), (f.2.alone (b.get f.1)).1 = .ok ()) →
    ∃ b' T', DoneS3 (l.flatMap (objJobs C)) b b' ∧ S3History C L Ty T' os b' ∧
      (∀ p, (∀ e ∈ l, e.1.path ≠ p) → T' p = T p) ∧
      (∀ p x, T p = some (.array x) → ∃ A, T' p = some (.array { x with content := A }) ∧
        ∀ y, (∀ e ∈ l, e.1.path = p → ¬ InRegion y e.1.write.off e.1.write.shape) → A y = x.content y) ∧
      ∀ e ∈ l, ∀ A, T' e.1.path = some (.array { e.1.item with content := A }) →
        ∀ y, InBox y e.1.item.shape → InRegion y e.1.write.off e.1.write.shape → A y = e.1.write.val (subV y e.1.write.off)
  | [], T, b, h, _, _, _ => by
    refine ⟨b, T, ⟨id, ?_, fun _ _ => rfl⟩, h, fun _ _ => rfl, fun p x hx => ⟨x.content, hx, fun _ _ => rfl⟩,
      fun e he => by cases he⟩
    intro j hj
    cases hj
  | e :: l, T, b, h, hr, hp, hok => by
    have hI := S3Container.inv_of_history hL h
    have hp' := List.pairwise_cons.1 hp
    have hr0 := hr e (List.mem_cons_self ..)
    have hr' := fun e he => hr e (List.mem_cons_of_mem _ he)
    rw [List.flatMap_cons] at hok
    have hself := hr0.self_ok (C := C)
    have hcross : ∀ j ∈ objJobs C e, ∀ k ∈ l.flatMap (objJobs C), j.1 ≠ k.1 := by
      intro f hf g hg
      obtain ⟨e', he', hg⟩ := List.mem_flatMap.1 hg
      exact hr0.apart hL hI (hr' e' he') (hp'.1 e' he') f hf g hg
    -- the first call
    obtain ⟨is, rs, hfin⟩ := exists_finishedS3 (C.key e.1.path) e.1.tasks b
    have hmap := interleaveObjects_eq (C.key e.1.path) is e.1.tasks b
    have heq : e.1.tasks.map (·.onObjects (C.key e.1.path)) = (objJobs C e).map Prod.snd := onObjects_eq (C := C) hr0
    rw [heq] at hmap
    obtain ⟨hrs, hdone⟩ := doneS3_of_finished hself (b := b) (is := is) (rs := rs) (by rw [hmap]; exact finished_onObjects.2 hfin)
    rw [hmap] at hdone
    obtain ⟨b₁, hb₁⟩ : ∃ b₁, b₁ = (interleaveS3 (C.key e.1.path) is (e.1.tasks, b)).2 := ⟨_, rfl⟩
    rw [← hb₁] at hdone
    have hcomp : AnyDataset.CompletesS3 (C.key e.1.path) e.1.tasks is b b₁ := by
      refine ⟨rs, hfin, ?_, hb₁⟩
      rw [hrs]
      intro r hr
      obtain ⟨f, hf, rfl⟩ := List.mem_map.1 hr
      exact hok f (List.mem_append_left _ hf)
    obtain ⟨A, hA⟩ := hr0.item
    have h1 := S3History.wrote h hr0.object hA hr0.mode hr0.typed (hr0.starts.performsS3 hcomp)
    obtain ⟨fk, hfk⟩ := facts hL hI e.1.path
    have F := hfk e rfl hr0
    obtain ⟨A₁, hA₁⟩ : ∃ A₁, A₁ = override A e.1.write.off e.1.write.shape e.1.write.val := ⟨_, rfl⟩
    have h1 : S3History C L Ty (T.put e.1.path (.array { e.1.item with content := A₁ })) os b₁ := by rw [hA₁]; exact h1
    obtain ⟨T₁, hT₁⟩ : ∃ T₁, T₁ = T.put e.1.path (.array { e.1.item with content := A₁ }) := ⟨_, rfl⟩
    rw [← hT₁] at h1
    have put_same : T₁ e.1.path = some (.array { e.1.item with content := A₁ }) := by rw [hT₁]; simp [Tree.put]
    have put_other : ∀ q, q ≠ e.1.path → T₁ q = T q := fun q hq => by rw [hT₁]; simp [Tree.put, hq]
    -- the others
    have hready : ∀ e' ∈ l, ReadyAs e' L T₁ os := by
      intro e' he'
      have g := hr' e' he'
      refine { g with item := ?_ }
      obtain ⟨B, hB⟩ := g.item
      by_cases hq : e'.1.path = e.1.path
      · rw [hq] at hB ⊢
        rw [hA] at hB
        have heq : ({ e.1.item with content := A } : ArrayItem Ty) = { e'.1.item with content := B } := by
          injection hB with hB; injection hB
        obtain ⟨B', hB'⟩ := WriteJob.item_with heq A₁
        exact ⟨B', by rw [put_same, hB']⟩
      · exact ⟨B, by rw [put_other _ hq]; exact hB⟩
    have hok' : ∀ f ∈ l.flatMap (objJobs C), (f.2.alone (b₁.get f.1)).1 = .ok () := by
      intro f hf
      rw [hdone.rest f.1 fun j hj e => hcross j hj f hf e.symm]
      exact hok f (List.mem_append_right _ hf)
    obtain ⟨b', T', k1, k2, k3, k4, k5⟩ := sequential hL h1 hready hp'.2 hok'
    refine ⟨b', T', by rw [List.flatMap_cons]; exact hdone.append hcross k1, k2, ?_, ?_, ?_⟩
    · intro p hpp
      rw [k3 p fun e' he' => hpp e' (List.mem_cons_of_mem _ he'), put_other p (fun e' => hpp e (List.mem_cons_self ..) e'.symm)]
    · intro p x hx
      by_cases hq : p = e.1.path
      · subst hq
        have e1 : x = { e.1.item with content := A } := by rw [hx] at hA; injection hA with hA; injection hA
        subst e1
        obtain ⟨A₂, g1, g2⟩ := k4 _ _ put_same
        refine ⟨A₂, g1, fun y hy => ?_⟩
        rw [g2 y fun e' he' => hy e' (List.mem_cons_of_mem _ he')]
        show A₁ y = A y
        rw [hA₁, override, if_neg (hy e (List.mem_cons_self ..) rfl)]
      · obtain ⟨A₂, g1, g2⟩ := k4 p x (by rw [put_other p hq]; exact hx)
        exact ⟨A₂, g1, fun y hy => g2 y fun e' he' => hy e' (List.mem_cons_of_mem _ he')⟩
    · intro e' he'
      rcases List.mem_cons.1 he' with rfl | he'
      · intro A' hA' y hy hreg
        obtain ⟨A₂, g1, g2⟩ := k4 _ _ put_same
        rw [hA'] at g1
        have e1 : A' = A₂ := by
          injection g1 with g1; injection g1 with g1
          exact eq_of_heq (ArrayItem.mk.inj g1).2.2.2.2.2.1
        rw [e1, g2 y ?_]
        · show A₁ y = _
          rw [hA₁, override, if_pos hreg]
        · intro e'' he'' hpath hreg'
          obtain ⟨c, hc⟩ := F.wf.exists_part (y := y) (by rw [F.shape]; exact hy)
          have hc : InChunk e'.1.item.shape e'.1.part c y := by rw [part, ← F.shape, ← F.part]; exact hc
          exact hp'.1 e'' he'' hpath.symm c y y hreg hreg' hc hc
      · exact k5 e' he'

end S3WriteJob
end Z5
