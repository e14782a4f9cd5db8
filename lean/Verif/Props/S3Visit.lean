import Verif.Props.S3Factory
import Verif.Props.S3
import Verif.Props.Visit
import Verif.Proofs.S3Visit

/-!
# C58 on S3
-/

namespace Z5

open Spec

theorem Bucket.Member.ne_nil {b : Bucket} {g : S3PyGroup} {rel : List Key} {obj : S3PyGroup ⊕ S3DatasetObj}
    (h : b.Member g rel obj) : rel ≠ [] := by
  cases h <;> exact List.cons_ne_nil _ _

theorem Bucket.Child.hasNode {b : Bucket} {name n : Key} (h : b.Child name n) : b.HasNode (joinKey name n) := by
  obtain ⟨_, s, hs⟩ := h
  rw [dirPrefix_join] at hs
  exact .inr ⟨_, hs, s, by simp⟩

theorem s3_getItem_member {b : Bucket} {g : S3PyGroup} {n : Key} {obj : S3PyGroup ⊕ S3DatasetObj}
    (h : b.Member g [n] obj) : (g.getItem n).Answers b (.ok obj) := by
  classical
  have hc : b.Child g.handle.name n → (g.handle.has n).Answers b (.ok true) := fun h => by
    have := has_does g.handle n b
    rw [decide_eq_true h.hasNode] at this
    exact .of_does this
  unfold S3PyGroup.getItem
  cases h with
  | group h1 h2 =>
    refine (hc h1).bind ?_
    rw [if_neg (by decide)]
    refine h2.bind ?_
    exact .pure _
  | dataset h1 h2 h3 =>
    refine (hc h1).bind ?_
    rw [if_neg (by decide)]
    refine h2.bind ?_
    rw [if_neg (by decide)]
    exact h3.bind (.pure _)
  | deeper _ _ h3 => exact absurd rfl h3.ne_nil

theorem s3_openDataset_name {b : Bucket} {h : S3Handle} {key : Key} {d : S3DatasetObj}
    (ho : (h.openDataset key).Answers b (.ok d)) : d.name = joinKey h.name key := by
  obtain ⟨n, hn⟩ := ho.run
  have ho : h.openDataset key ⟨List.replicate n {}, b⟩ = (some (.ok d), _) := Prod.ext (hn n (Nat.le_refl _)) rfl
  unfold S3Handle.openDataset at ho
  obtain ⟨z, w1, -, ho⟩ := S3M.bind_ok ho
  have ho : ∃ (cfg : ChunkConfig) (w2 w3 : World),
      (h.dataset key cfg.delimiter cfg.zarrFormat cfg.encoding).openDataset w2 = (some (.ok d), w3) := by
    cases z with
    | false =>
      obtain ⟨cfg, w2, -, ho⟩ := S3M.bind_ok ho
      exact ⟨cfg, w2, _, ho⟩
    | true =>
      obtain ⟨cfg, w2, -, ho⟩ := S3M.bind_ok ho
      exact ⟨cfg, w2, _, ho⟩
  obtain ⟨cfg, w2, w3, ho⟩ := ho
  unfold S3DatasetHandle.openDataset at ho
  obtain ⟨e, w4, -, ho⟩ := S3M.bind_ok ho
  cases e with
  | false => cases ho
  | true =>
    rw [if_neg (by decide)] at ho
    obtain ⟨m, w5, -, ho⟩ := S3M.bind_ok ho
    injection ho with ho _
    injection ho with ho
    unfold makeS3Dataset at ho
    split at ho
    · cases ho
    · obtain ⟨o, _, ho⟩ := Res.bind_eq_ok.1 ho
      cases ho
      rfl

/-- the name of an object -/
def s3Name : S3PyGroup ⊕ S3DatasetObj → Key
  | .inl g => g.handle.name
  | .inr d => d.name

theorem Bucket.Member.trans {b : Bucket} {g g' : S3PyGroup} {rel rel' : List Key} {obj : S3PyGroup ⊕ S3DatasetObj}
    (h : b.Member g rel (.inl g')) (h' : b.Member g' rel' obj) : b.Member g (rel ++ rel') obj := by
  generalize ho : (Sum.inl g' : S3PyGroup ⊕ S3DatasetObj) = o at h
  induction h with
  | group h1 h2 => cases ho; exact .deeper h1 h2 h'
  | dataset => cases ho
  | deeper h1 h2 _ ih => exact .deeper h1 h2 (ih ho)

theorem s3_sound_sub {b : Bucket} {g g' : S3PyGroup} {rel : List Key} (hs : b.Sound g)
    (h : b.Member g rel (.inl g')) : b.Sound g' := by
  rintro g'' (rfl | ⟨rel', h'⟩)
  · exact hs _ (.inr ⟨rel, h⟩)
  · exact hs _ (.inr ⟨_, h.trans h'⟩)

theorem Bucket.Member.name {b : Bucket} {g : S3PyGroup} {rel : List Key} {obj : S3PyGroup ⊕ S3DatasetObj}
    (hs : b.Sound g) (h : b.Member g rel obj) : s3Name obj = joinKey g.handle.name (slashed rel) := by
  induction h with
  | group => rfl
  | dataset _ _ h => exact s3_openDataset_name h
  | @deeper g n rel _ h1 h2 h3 ih =>
    rw [ih (s3_sound_sub hs (.group h1 h2)), slashed_cons h3.ne_nil]
    exact joinKey_join (hs g (.inl rfl) n h1).1

/-- there is one member of each name -/
theorem s3_member_unique {b : Bucket} {g : S3PyGroup} {n : Key} {o o' : S3PyGroup ⊕ S3DatasetObj}
    (h : b.Member g [n] o) (h' : b.Member g [n] o') : o = o' := by
  have := (s3_getItem_member h).unique (s3_getItem_member h')
  injection this

open Classical in
/-- the names of the children -/
noncomputable def s3Keys (b : Bucket) (g : S3PyGroup) : List Key :=
  if h : b.WF then Classical.choose (keys_answers (h := g.handle) h) else []

open Classical in
/-- what is found -/
noncomputable def s3Item (b : Bucket) (g : S3PyGroup) (n : Key) : S3PyGroup ⊕ S3DatasetObj :=
  if h : ∃ o, b.Member g [n] o then Classical.choose h else .inl g

theorem s3Keys_spec {b : Bucket} (hb : b.WF) (g : S3PyGroup) :
    g.handle.keys.Answers b (.ok (s3Keys b g)) ∧ (s3Keys b g).Nodup ∧
      ∀ n, n ∈ s3Keys b g ↔ b.Child g.handle.name n := by
  unfold s3Keys
  rw [dif_pos hb]
  exact Classical.choose_spec (keys_answers (h := g.handle) hb)

theorem s3Item_member {b : Bucket} {g : S3PyGroup} {n : Key} {obj : S3PyGroup ⊕ S3DatasetObj}
    (h : b.Member g [n] obj) : s3Item b g n = obj := by
  unfold s3Item
  rw [dif_pos ⟨obj, h⟩]
  exact s3_member_unique (Classical.choose_spec (⟨obj, h⟩ : ∃ o, b.Member g [n] o)) h

theorem walks_s3 {b : Bucket} (hb : b.WF) :
    ∀ (limit : Nat) (g : S3PyGroup), b.Sound g → 0 < limit →
      (∀ rel g', b.Member g rel (.inl g') → rel.length < limit) →
      Walks (fun x a => x.Answers b (.ok a)) s3Mapping (s3Keys b) (s3Item b) limit g := by
  intro limit
  induction limit with
  | zero => intro g _ h; exact absurd h (by decide)
  | succ limit ih =>
    intro g hs _ hd
    obtain ⟨hk1, _, hk2⟩ := s3Keys_spec hb g
    refine ⟨hk1, fun n hn => ?_⟩
    obtain ⟨_, obj, ho⟩ := hs g (.inl rfl) n ((hk2 n).1 hn)
    have he := s3Item_member ho
    refine ⟨by rw [he]; exact s3_getItem_member ho, fun g' e => ?_⟩
    rw [he] at e
    subst e
    have := hd [n] g' ho
    refine ih g' (s3_sound_sub hs ho) (by simp at this; omega) ?_
    intro rel g'' h
    have := hd _ _ (ho.trans h)
    simp at this
    omega

theorem mem_walk_s3 {b : Bucket} (hb : b.WF) :
    ∀ (limit : Nat) (g : S3PyGroup), b.Sound g → 0 < limit →
      (∀ rel g', b.Member g rel (.inl g') → rel.length < limit) →
      ∀ rel obj, (rel, obj) ∈ walk (s3Keys b) (s3Item b) limit g ↔ b.Member g rel obj := by
  intro limit
  induction limit with
  | zero => intro g _ h; exact absurd h (by decide)
  | succ limit ih =>
    intro g hs _ hd rel obj
    have hk := (s3Keys_spec hb g).2.2
    have hnext : ∀ n g', b.Member g [n] (.inl g') → ∀ rel obj,
        (rel, obj) ∈ walk (s3Keys b) (s3Item b) limit g' ↔ b.Member g' rel obj := by
      intro n g' ho
      have := hd [n] g' ho
      refine ih g' (s3_sound_sub hs ho) (by simp at this; omega) ?_
      intro rel g'' h
      have := hd _ _ (ho.trans h)
      simp at this
      omega
    rw [mem_walk]
    constructor
    · rintro ⟨n, hn, h⟩
      obtain ⟨_, o, ho⟩ := hs g (.inl rfl) n ((hk n).1 hn)
      rw [s3Item_member ho] at h
      rcases h with ⟨rfl, rfl⟩ | ⟨g', rel', rfl, rfl, h⟩
      · exact ho
      · exact ho.trans ((hnext n g' ho rel' obj).1 h)
    · intro h
      cases h with
      | group h1 h2 => exact ⟨_, (hk _).2 h1, .inl ⟨rfl, (s3Item_member (.group h1 h2)).symm⟩⟩
      | dataset h1 h2 h3 => exact ⟨_, (hk _).2 h1, .inl ⟨rfl, (s3Item_member (.dataset h1 h2 h3)).symm⟩⟩
      | @deeper _ n rel _ h1 h2 h3 =>
        exact ⟨_, (hk _).2 h1, .inr ⟨_, rel, s3Item_member (.group h1 h2), rfl, (hnext _ _ (.group h1 h2) _ _).2 h3⟩⟩

/-- **C58 (S3).**  If whatever has objects below it, in a group and in the groups below it, is a group or a dataset that
    can be opened, `visititems` calls `func` exactly once for every member, with its name relative to the group and
    the object, a group before its members; it stops at the first result that is not `None` and returns it.
    However long the listings are and however they are cut into pages; if a request other than a listing fails, the
    error is reported. -/
theorem c58_s3 {b : Bucket} {g : S3PyGroup} {limit : Nat} (hb : b.WF) (hs : b.Sound g) (h0 : 0 < limit)
    (hd : ∀ rel g', b.Member g rel (.inl g') → rel.length < limit) :
    ∃ ms : List (List Key × (S3PyGroup ⊕ S3DatasetObj)),
      (ms.map (·.1)).Nodup ∧ (∀ rel obj, (rel, obj) ∈ ms ↔ b.Member g rel obj) ∧
      ms.Pairwise (fun p q => ¬ q.1 <+: p.1) ∧
      ∀ (s v : Type) (func : Key → S3PyGroup ⊕ S3DatasetObj → s → Option v × s) (st : s),
        (visitItems s3Mapping g func limit g st).Answers b
          (.ok (callUntil (fun p => func (slashed p.1) p.2) ms st)) := by
  have hm := mem_walk_s3 hb limit g hs h0 hd
  have ho := walk_order (I := s3Item b) (fun g => (s3Keys_spec hb g).2.1) limit g
  refine ⟨walk (s3Keys b) (s3Item b) limit g, ?_, hm, ho, fun s v func st => ?_⟩
  · rw [List.Nodup, List.pairwise_map]
    exact ho.imp fun {p q} h (e : p.1 = q.1) => h (by rw [e]; exact List.prefix_rfl)
  · have := visit_gives (fun x a => x.Answers b (.ok a)) (fun a => .pure a)
      (fun {α β x f a c} hx hf => hx.bind hf)
      s3Mapping (s3Keys b) (s3Item b) g func limit g st (walks_s3 hb limit g hs h0 hd)
    have hc : ∀ (l : List (List Key × (S3PyGroup ⊕ S3DatasetObj))) (st : s), (∀ p ∈ l, b.Member g p.1 p.2) →
        callUntil (fun p => func (s3Mapping.relative g p.2) p.2) l st
          = callUntil (fun p => func (slashed p.1) p.2) l st := by
      intro l
      induction l with
      | nil => intro _ _; rfl
      | cons p l ih =>
        intro st h
        have hp := h p List.mem_cons_self
        have : s3Mapping.relative g p.2 = slashed p.1 := by
          show S3PyGroup.relative g p.2 = slashed p.1
          have e := s3RelativePath_join g.handle.name (slashed p.1)
          rw [← hp.name hs] at e
          rw [← e]
          cases p.2 <;> rfl
        simp only [callUntil, this]
        rcases func (slashed p.1) p.2 st with ⟨_ | r, st'⟩
        · exact ih st' fun q hq => h q (List.mem_cons_of_mem _ hq)
        · rfl
    rw [hc _ _ fun p hp => (hm _ _).1 hp] at this
    exact this

/-! ### Examples -/

/-- the children, by looking at the keys -/
theorem child_mem {b : Bucket} {name n : Key} (h : b.Child name n) :
    n ∈ (b.keys.filter fun k => decide (dirPrefix name <+: k) && decide ('/' ∈ k.drop (dirPrefix name).length)).map
      fun k => (k.drop (dirPrefix name).length).takeWhile (· ≠ '/') := by
  obtain ⟨h1, s, h2⟩ := h
  refine List.mem_map.2 ⟨_, List.mem_filter.2 ⟨h2, ?_⟩, ?_⟩
  · simp
  · rw [List.append_assoc, List.drop_left]
    rw [List.takeWhile_append_of_pos (by
      intro c hc
      simp only [ne_eq, decide_not, Bool.not_eq_eq_eq_not, Bool.not_true, decide_eq_false_iff_not]
      rintro rfl
      exact h1 hc)]
    simp

theorem isSubGroup_v2 {h : S3Handle} {key : Key} {b : Bucket} (hz : b.IsZarr h.name)
    (h3 : b.get (joinKey h.name (key ++ '/' :: "zarr.json".toList)) = none) :
    (h.isSubGroup key).Does 6 b (.ok (b.get (joinKey h.name (key ++ '/' :: ".zgroup".toList))).isSome) b := by
  classical
  unfold S3Handle.isSubGroup
  have h1 := root_isZarr h b
  rw [decide_eq_true hz] at h1
  refine h1.bind (m := 2) ?_
  have h2 := objectExists_does (joinKey h.name (key ++ '/' :: "zarr.json".toList)) b
  rw [h3] at h2
  exact h2.bind (m := 1) (objectExists_does _ _)

/-- A zarr container with a group and a dataset -/
def exS3Tree : Bucket :=
  [("f/.zgroup".toList, .doc (.obj [("zarr_format", .int 2)])),
   ("f/d/.zarray".toList, .doc (match exDs.info.toJson with | .ok j => j | _ => .null)),
   ("f/g/.zgroup".toList, .doc (.obj [("zarr_format", .int 2)]))]

def exS3TreeRoot : S3PyGroup := ⟨exS3Root, 2⟩

theorem exS3Tree_root {n : Key} (h : exS3Tree.Child "f".toList n) : n = "d".toList ∨ n = "g".toList := by
  have := child_mem h
  have e : ((exS3Tree.keys.filter fun k => decide (dirPrefix "f".toList <+: k) &&
      decide ('/' ∈ k.drop (dirPrefix "f".toList).length)).map
      fun k => (k.drop (dirPrefix "f".toList).length).takeWhile (· ≠ '/')) = ["d".toList, "g".toList] := by
    decide +kernel
  rw [e] at this
  simpa using this

theorem exS3Tree_g {n : Key} (h : exS3Tree.Child "f/g".toList n) : False := by
  have := child_mem h
  have e : ((exS3Tree.keys.filter fun k => decide (dirPrefix "f/g".toList <+: k) &&
      decide ('/' ∈ k.drop (dirPrefix "f/g".toList).length)).map
      fun k => (k.drop (dirPrefix "f/g".toList).length).takeWhile (· ≠ '/')) = [] := by
    decide +kernel
  rw [e] at this
  cases this

theorem exS3Tree_zarr : exS3Tree.IsZarr exS3Root.name :=
  ⟨".zgroup", List.mem_cons_self, .inl (by decide +kernel)⟩

theorem exS3Tree_isGroup : (exS3Root.isSubGroup "g".toList).Answers exS3Tree (.ok true) :=
  .of_does (isSubGroup_v2 exS3Tree_zarr (by decide +kernel))

theorem exS3Tree_notGroup : (exS3Root.isSubGroup "d".toList).Answers exS3Tree (.ok false) :=
  .of_does (isSubGroup_v2 exS3Tree_zarr (by decide +kernel))

theorem exS3Tree_open : (exS3Root.openDataset "d".toList).Answers exS3Tree (.ok exS3Ds) := by
  classical
  unfold S3Handle.openDataset
  have h1 := root_isZarr exS3Root exS3Tree
  rw [decide_eq_true exS3Tree_zarr] at h1
  refine (S3M.Answers.of_does h1).bind ?_
  have hcfg : (readS3ChunkConfig "f/d".toList).Answers exS3Tree (.ok ⟨"/", 2, "default"⟩) := by
    unfold readS3ChunkConfig
    refine (S3M.Answers.of_does (getObject_does _ _)).bind ?_
    rw [show exS3Tree.get (docKey "f/d".toList "zarr.json") = none by decide +kernel]
    refine (S3M.Answers.of_does (getObject_does _ _)).bind ?_
    rw [show exS3Tree.get (docKey "f/d".toList ".zarray")
      = some (.doc (match exDs.info.toJson with | .ok j => j | _ => .null)) from rfl]
    have e : getZarrChunkConfig none (some (match exDs.info.toJson with | .ok j => j | _ => .null))
      = .ok ⟨"/", 2, "default"⟩ := by decide +kernel
    rw [← e]
    exact .of_does (.lift _ _)
  refine hcfg.bind ?_
  unfold S3DatasetHandle.openDataset
  have he := exist_does ⟨"f/d".toList, .a⟩ exS3Tree
  rw [decide_eq_true (show exS3Tree.Exists "f/d".toList from
    ⟨"f/d/.zarray".toList, by decide +kernel, ⟨".zarray".toList, by decide +kernel⟩⟩)] at he
  refine (S3M.Answers.of_does he).bind ?_
  rw [if_neg (by decide)]
  have hm := readS3Metadata_does "f/d".toList exS3Tree
  rw [show exS3Tree.metadata "f/d".toList = .ok exDs.info by decide +kernel] at hm
  refine (S3M.Answers.of_does hm).bind ?_
  have e : makeS3Dataset (exS3Root.dataset "d".toList "/" 2 "default") exDs.info = .ok exS3Ds := by decide +kernel
  rw [← e]
  exact .of_does (.lift _ _)

theorem exS3Tree_wf : exS3Tree.WF := by
  unfold Bucket.WF
  decide +kernel

theorem exS3Tree_members {rel : List Key} {g' : S3PyGroup} (h : exS3Tree.Member exS3TreeRoot rel (.inl g')) :
    rel = ["g".toList] ∧ g' = ⟨exS3Root.child "g".toList, 2⟩ := by
  have hg : ∀ {n : Key}, exS3Tree.Child exS3TreeRoot.handle.name n →
      (exS3TreeRoot.handle.isSubGroup n).Answers exS3Tree (.ok true) → n = "g".toList := by
    intro n h1 h2
    rcases exS3Tree_root h1 with rfl | rfl
    · have := h2.unique exS3Tree_notGroup
      cases this
    · rfl
  cases h with
  | group h1 h2 => cases hg h1 h2; exact ⟨rfl, rfl⟩
  | deeper h1 h2 h3 =>
    cases hg h1 h2
    cases h3 with
    | group h => exact (exS3Tree_g h).elim
    | deeper h => exact (exS3Tree_g h).elim

theorem exS3Tree_child {n : Key} (h : exS3Tree.Child exS3Root.name n) : n ≠ [] ∧ ∃ obj, exS3Tree.Member exS3TreeRoot [n] obj := by
  rcases exS3Tree_root h with rfl | rfl
  · exact ⟨by decide, _, .dataset h exS3Tree_notGroup exS3Tree_open⟩
  · exact ⟨by decide, _, .group h exS3Tree_isGroup⟩

theorem exS3Tree_sound : exS3Tree.Sound exS3TreeRoot := by
  rintro g' (rfl | ⟨rel, h⟩) n hn
  · exact exS3Tree_child hn
  · obtain ⟨_, rfl⟩ := exS3Tree_members h
    exact (exS3Tree_g hn).elim

/-- The hypotheses of `c58_s3` are met, by a bucket with a group and a dataset. -/
example : ∃ ms : List (List Key × (S3PyGroup ⊕ S3DatasetObj)),
    (["d".toList], .inr exS3Ds) ∈ ms ∧ (["g".toList], .inl ⟨exS3Root.child "g".toList, 2⟩) ∈ ms ∧
    (visitItems s3Mapping exS3TreeRoot (fun p _ st => (none, st ++ [p])) 1000 exS3TreeRoot [] :
      S3M (Option Unit × List Key)).Answers exS3Tree
        (.ok (callUntil (fun p st => (none, st ++ [slashed p.1])) ms [])) := by
  obtain ⟨ms, _, h2, _, h4⟩ := c58_s3 (limit := 1000) exS3Tree_wf exS3Tree_sound (by decide)
    (fun rel g' h => by rw [(exS3Tree_members h).1]; decide)
  exact ⟨ms, (h2 _ _).2 (.dataset ⟨by decide, ".zarray".toList, by decide +kernel⟩ exS3Tree_notGroup exS3Tree_open),
    (h2 _ _).2 (.group ⟨by decide, ".zgroup".toList, by decide +kernel⟩ exS3Tree_isGroup), h4 _ _ _ _⟩

/-- **C58, negation**: when the request for a listing fails, `visititems` returns as if there were no members. -/
theorem c58_s3_listing_counterexample : ∃ (g : S3PyGroup) (b : Bucket) (es : List Event), b.WF ∧ b.Sound g ∧
    (∀ e ∈ es, e.Reliable) ∧ (∃ rel obj, b.Member g rel obj) ∧
    ∀ (s v : Type) (func : Key → S3PyGroup ⊕ S3DatasetObj → s → Option v × s) (st : s),
      (visitItems s3Mapping g func 1000 g st ⟨es, b⟩).1 = some (.ok (none, st)) := by
  refine ⟨exS3TreeRoot, exS3Tree, [{ error := fun k => if k = .list then some (.other, false) else none }],
    exS3Tree_wf, exS3Tree_sound, fun e he => ?_,
    ⟨_, _, .group ⟨by decide, ".zgroup".toList, by decide +kernel⟩ exS3Tree_isGroup⟩, fun s v func st => rfl⟩
  cases List.mem_singleton.1 he
  exact ⟨rfl, rfl, (fun d h => by cases h), by decide⟩

/-- **C58, negation**: an object of another program whose name begins with a slash makes the recursion of `visititems`
    in the root of a bucket endless, until Python raises an exception. -/
theorem c58_s3_empty_name_counterexample : ∃ (g : S3PyGroup) (b : Bucket), b.WF ∧
    ∀ (limit : Nat) (s v : Type) (func : Key → S3PyGroup ⊕ S3DatasetObj → s → Option v × s) (st : s),
      (∀ p o st, (func p o st).1 = none) → (visitItems s3Mapping g func limit g st).Answers b (.throw .runtimeError) := by
  classical
  let g : S3PyGroup := ⟨⟨[], .a⟩, 2⟩
  let b : Bucket := [("/x".toList, .file [])]
  have hb : b.WF := List.pairwise_singleton _ _
  have hk : g.handle.keys.Answers b (.ok [[]]) := by
    obtain ⟨names, h1, h2, h3⟩ := keys_answers (h := g.handle) hb
    have h4 : [] ∈ names := (h3 []).2 ⟨by simp, ['x'], by decide⟩
    have h5 : ∀ n ∈ names, n = [] := by
      intro n hn
      have := child_mem ((h3 n).1 hn)
      have e : ((b.keys.filter fun k => decide (dirPrefix [] <+: k) && decide ('/' ∈ k.drop (dirPrefix []).length)).map
        fun k => (k.drop (dirPrefix []).length).takeWhile (· ≠ '/')) = [[]] := by decide +kernel
      rw [show g.handle.name = [] from rfl, e] at this
      simpa using this
    have : names = [[]] := by
      cases names with
      | nil => cases h4
      | cons a l =>
        cases h5 a List.mem_cons_self
        cases l with
        | nil => rfl
        | cons c l =>
          cases h5 c (by simp)
          exact absurd rfl ((List.pairwise_cons.1 h2).1 [] List.mem_cons_self)
    rw [this] at h1
    exact h1
  have hz : ¬ b.IsZarr [] := by
    rintro ⟨m, hm, h | ⟨k, hk, hp⟩⟩
    · have : docKey [] m = "/x".toList := by simpa [b, Bucket.keys] using h
      simp only [List.mem_cons, List.not_mem_nil, or_false] at hm
      rcases hm with rfl | rfl <;> exact absurd this (by decide)
    · have : k = "/x".toList := by simpa [b, Bucket.keys] using hk
      subst this
      simp only [List.mem_cons, List.not_mem_nil, or_false] at hm
      rcases hm with rfl | rfl <;> exact absurd hp (by decide)
  have hi : (s3Mapping.item g []).Answers b (.ok (.inl g)) := by
    refine s3_getItem_member (.group (g := g) ⟨by simp, ['x'], by decide⟩ ?_)
    have h1 := root_isZarr g.handle b
    rw [decide_eq_false hz] at h1
    unfold S3Handle.isSubGroup
    refine (S3M.Answers.of_does h1).bind ?_
    exact (S3M.Answers.of_does (getObject_does _ _)).bind (.pure _)
  refine ⟨g, b, hb, fun limit => ?_⟩
  induction limit with
  | zero => intro s v func st _; exact .of_does (.lift _ _)
  | succ limit ih =>
    intro s v func st hf
    refine hk.bind ?_
    show (s3Mapping.item g [] >>= fun obj => _).Answers b _
    refine hi.bind ?_
    have := hf (s3Mapping.relative g (.inl g)) (.inl g) st
    generalize func (s3Mapping.relative g (.inl g)) (.inl g) st = q at this ⊢
    obtain ⟨r, st'⟩ := q
    cases this
    exact (ih s v func st' hf).bind_throw

end Z5
