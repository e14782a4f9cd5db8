import Verif.Props.Confined
import Verif.Proofs.Visit

/-!
# C58: `visititems`
-/

namespace Z5

theorem Fs.Member.ne_nil {σ : Fs} {g : PyGroup} {rel : Path} {obj : PyGroup ⊕ DatasetObj} (h : σ.Member g rel obj) :
    rel ≠ [] := by
  cases h <;> exact List.cons_ne_nil _ _

theorem getItem_member {σ : Fs} {g : PyGroup} {n : String} {obj : PyGroup ⊕ DatasetObj} (h : σ.Member g [n] obj) :
    g.getItem ⟨false, [n]⟩ σ = (.ok obj, σ) := by
  have hq := fun (h : GroupHandle) (key : Path) => c53_queries σ h ⟨[], .a, "", 0, "", none⟩ g key ⟨false, []⟩ .null
  have hs : ∀ {b}, (g.handle.isSubGroup [n] σ).1 = .ok b → g.handle.isSubGroup [n] σ = (.ok b, σ) :=
    fun h => Prod.ext h (hq g.handle [n]).2.2.2.1
  have ho : ∀ {d}, (g.handle.openDataset [n] σ).1 = .ok d → g.handle.openDataset [n] σ = (.ok d, σ) :=
    fun h => Prod.ext h (hq g.handle [n]).2.2.2.2.2.2.2.1
  have hc : σ (g.handle.path ++ [n]) = some .dir → g.contains ⟨false, [n]⟩ σ = (.ok true, σ) := fun h => by
    show (Res.ok (isDirectory (σ (g.handle.path ++ [n]))), σ) = _
    rw [h]
    rfl
  unfold PyGroup.getItem
  cases h with
  | group h1 h2 =>
    rw [FsM.bind_run, hc h1]
    dsimp only
    rw [if_neg (by decide), FsM.bind_run, hs h2]
    rfl
  | dataset h1 h2 h3 =>
    rw [FsM.bind_run, hc h1]
    dsimp only
    rw [if_neg (by decide), FsM.bind_run, hs h2]
    dsimp only
    rw [if_neg (by decide), FsM.bind_run, ho h3]
    rfl
  | deeper _ _ h3 => exact absurd rfl h3.ne_nil

theorem openDataset_path {σ : Fs} {h : GroupHandle} {key : Path} {d : DatasetObj} (ho : (h.openDataset key σ).1 = .ok d) :
    d.handle.path = h.path ++ key := by
  have ho : h.openDataset key σ = (.ok d, (h.openDataset key σ).2) := Prod.ext ho rfl
  unfold GroupHandle.openDataset at ho
  obtain ⟨z, σ1, -, ho⟩ := FsM.bind_ok.1 ho
  have ho : ∃ (cfg : ChunkConfig) (σ2 : Fs), (h.dataset key cfg.delimiter cfg.zarrFormat cfg.encoding).openDataset σ2
      = (.ok d, (h.openDataset key σ).2) := by
    cases z with
    | false =>
      obtain ⟨cfg, σ2, -, ho⟩ := FsM.bind_ok.1 ho
      exact ⟨cfg, σ2, ho⟩
    | true =>
      obtain ⟨cfg, σ2, -, ho⟩ := FsM.bind_ok.1 ho
      exact ⟨cfg, σ2, ho⟩
  obtain ⟨cfg, σ2, ho⟩ := ho
  unfold DatasetHandle.openDataset at ho
  obtain ⟨b, σ3, -, ho⟩ := FsM.bind_ok.1 ho
  cases b with
  | false => cases ho
  | true =>
    rw [if_neg (by decide)] at ho
    obtain ⟨m, σ4, -, ho⟩ := FsM.bind_ok.1 ho
    have ho : makeDataset (h.dataset key cfg.delimiter cfg.zarrFormat cfg.encoding) m = .ok d := congrArg Prod.fst ho
    obtain ⟨B, f, s, _, _, _, hx⟩ := makeDataset_ok.1 ho
    rcases hx with ⟨_, _, _, hx⟩ | ⟨_, hx⟩ <;> rw [hx] <;> rfl

/-- the path of an object -/
def pyPath : PyGroup ⊕ DatasetObj → Path
  | .inl g => g.handle.path
  | .inr d => d.handle.path

theorem Fs.Member.path {σ : Fs} {g : PyGroup} {rel : Path} {obj : PyGroup ⊕ DatasetObj} (h : σ.Member g rel obj) :
    pyPath obj = g.handle.path ++ rel := by
  induction h with
  | group => rfl
  | dataset _ _ h => exact openDataset_path h
  | @deeper g n rel _ _ _ _ ih =>
    rw [ih]
    show (g.handle.path ++ [n]) ++ rel = _
    rw [List.append_assoc]
    rfl

theorem Fs.Member.trans {σ : Fs} {g g' : PyGroup} {rel rel' : Path} {obj : PyGroup ⊕ DatasetObj}
    (h : σ.Member g rel (.inl g')) (h' : σ.Member g' rel' obj) : σ.Member g (rel ++ rel') obj := by
  generalize ho : (Sum.inl g' : PyGroup ⊕ DatasetObj) = o at h
  induction h with
  | group h1 h2 => cases ho; exact .deeper h1 h2 h'
  | dataset => cases ho
  | deeper h1 h2 _ ih => exact .deeper h1 h2 (ih ho)

/-- the names of the directories in a group -/
def filesKeys (σ : Fs) (entries : Path → List String) (g : PyGroup) : List String :=
  (entries g.handle.path).filter fun n => isDirectory (σ (g.handle.path ++ [n]))

theorem mem_filesKeys {σ : Fs} {entries : Path → List String} (hl : σ.Lists entries) {g : PyGroup} {n : String} :
    n ∈ filesKeys σ entries g ↔ σ (g.handle.path ++ [n]) = some .dir := by
  unfold filesKeys
  rw [List.mem_filter, (hl _).2]
  cases h : σ (g.handle.path ++ [n]) with
  | none => simp
  | some e => cases e <;> simp [isDirectory]

/-- what is found -/
def filesItem (σ : Fs) (g : PyGroup) (n : String) : PyGroup ⊕ DatasetObj :=
  match (g.getItem ⟨false, [n]⟩ σ).1 with
  | .ok o => o
  | _ => .inl g

theorem filesItem_member {σ : Fs} {g : PyGroup} {n : String} {obj : PyGroup ⊕ DatasetObj} (h : σ.Member g [n] obj) :
    filesItem σ g n = obj := by
  unfold filesItem
  rw [getItem_member h]

/-- a member that is a group has this handle -/
theorem Fs.Member.sub {σ : Fs} {g g' : PyGroup} {n : String} (h : σ.Member g [n] (.inl g')) :
    σ (g.handle.path ++ [n]) = some .dir ∧ (g.handle.isSubGroup [n] σ).1 = .ok true ∧
      g' = ⟨g.handle.group [n], g.zarrFormat⟩ := by
  cases h with
  | group h1 h2 => exact ⟨h1, h2, rfl⟩
  | deeper _ _ h => exact absurd rfl h.ne_nil

theorem sound_sub {σ : Fs} {g g' : PyGroup} {rel : Path} (hs : σ.Sound g) (h : σ.Member g rel (.inl g')) : σ.Sound g' := by
  rintro g'' (rfl | ⟨rel', h'⟩)
  · exact hs _ (.inr ⟨rel, h⟩)
  · exact hs _ (.inr ⟨_, h.trans h'⟩)

theorem walks_files {σ : Fs} {entries : Path → List String} (hl : σ.Lists entries) :
    ∀ (limit : Nat) (g : PyGroup), σ g.handle.path = some .dir → σ.Sound g → 0 < limit →
      (∀ rel g', σ.Member g rel (.inl g') → rel.length < limit) →
      Walks (fun x a => x σ = (.ok a, σ)) (filesMapping entries) (filesKeys σ entries) (filesItem σ) limit g := by
  intro limit
  induction limit with
  | zero => intro g _ _ h; exact absurd h (by decide)
  | succ limit ih =>
    intro g hg hs _ hd
    refine ⟨?_, fun n hn => ?_⟩
    · show GroupHandle.keys entries g.handle σ = _
      unfold GroupHandle.keys
      rw [hg]
      rfl
    · obtain ⟨obj, ho⟩ := hs g (.inl rfl) n ((mem_filesKeys hl).1 hn)
      have he := filesItem_member ho
      refine ⟨by rw [he]; exact getItem_member ho, fun g' e => ?_⟩
      rw [he] at e
      subst e
      obtain ⟨h1, h2, h3⟩ := ho.sub
      have := hd [n] g' ho
      refine ih g' (by rw [h3]; exact h1) (sound_sub hs ho) (by simp at this; omega) ?_
      intro rel g'' h
      have := hd _ _ (ho.trans h)
      simp at this
      omega

theorem mem_walk_files {σ : Fs} {entries : Path → List String} (hl : σ.Lists entries) :
    ∀ (limit : Nat) (g : PyGroup), σ.Sound g → 0 < limit →
      (∀ rel g', σ.Member g rel (.inl g') → rel.length < limit) →
      ∀ rel obj, (rel, obj) ∈ walk (filesKeys σ entries) (filesItem σ) limit g ↔ σ.Member g rel obj := by
  intro limit
  induction limit with
  | zero => intro g _ h; exact absurd h (by decide)
  | succ limit ih =>
    intro g hs _ hd rel obj
    have hnext : ∀ n g', σ.Member g [n] (.inl g') → ∀ rel obj,
        (rel, obj) ∈ walk (filesKeys σ entries) (filesItem σ) limit g' ↔ σ.Member g' rel obj := by
      intro n g' ho
      have := hd [n] g' ho
      refine ih g' (sound_sub hs ho) (by simp at this; omega) ?_
      intro rel g'' h
      have := hd _ _ (ho.trans h)
      simp at this
      omega
    rw [mem_walk]
    constructor
    · rintro ⟨n, hn, h⟩
      obtain ⟨o, ho⟩ := hs g (.inl rfl) n ((mem_filesKeys hl).1 hn)
      rw [filesItem_member ho] at h
      rcases h with ⟨rfl, rfl⟩ | ⟨g', rel', rfl, rfl, h⟩
      · exact ho
      · exact ho.trans ((hnext n g' ho rel' obj).1 h)
    · intro h
      have hn : ∀ {n}, σ (g.handle.path ++ [n]) = some .dir → n ∈ filesKeys σ entries g := (mem_filesKeys hl).2
      cases h with
      | group h1 h2 => exact ⟨_, hn h1, .inl ⟨rfl, (filesItem_member (.group h1 h2)).symm⟩⟩
      | dataset h1 h2 h3 => exact ⟨_, hn h1, .inl ⟨rfl, (filesItem_member (.dataset h1 h2 h3)).symm⟩⟩
      | @deeper _ n rel _ h1 h2 h3 =>
        exact ⟨_, hn h1, .inr ⟨_, rel, filesItem_member (.group h1 h2), rfl, (hnext _ _ (.group h1 h2) _ _).2 h3⟩⟩

/-- **C58 (files).**  If every directory in a group and in the groups below it is a group or a dataset that can be
    opened, `visititems` calls `func` exactly once for every member, with its path relative to the group and the
    object, a group before its members; it stops at the first result that is not `None` and returns it.  The order
    of listings does not matter, and groups may be nested as deep as Python allows. -/
theorem c58_visititems {σ : Fs} {entries : Path → List String} {g : PyGroup} {limit : Nat} (hl : σ.Lists entries)
    (hg : σ g.handle.path = some .dir) (hs : σ.Sound g) (h0 : 0 < limit)
    (hd : ∀ rel g', σ.Member g rel (.inl g') → rel.length < limit) :
    ∃ ms : List (Path × (PyGroup ⊕ DatasetObj)),
      (ms.map (·.1)).Nodup ∧ (∀ rel obj, (rel, obj) ∈ ms ↔ σ.Member g rel obj) ∧
      ms.Pairwise (fun p q => ¬ q.1 <+: p.1) ∧
      ∀ (s v : Type) (func : Path → PyGroup ⊕ DatasetObj → s → Option v × s) (st : s),
        visitItems (filesMapping entries) g func limit g st σ
          = (.ok (callUntil (fun p => func p.1 p.2) ms st), σ) := by
  have hK : ∀ g, (filesKeys σ entries g).Nodup := fun g => (hl _).1.filter _
  have hm := mem_walk_files hl limit g hs h0 hd
  have ho := walk_order (I := filesItem σ) hK limit g
  refine ⟨walk (filesKeys σ entries) (filesItem σ) limit g, ?_, hm, ho, fun s v func st => ?_⟩
  · rw [List.Nodup, List.pairwise_map]
    exact ho.imp fun {p q} h (e : p.1 = q.1) => h (by rw [e]; exact List.prefix_rfl)
  · have := visit_gives (fun x a => x σ = (.ok a, σ)) (fun _ => rfl)
      (fun {α β x f a b} hx hf => by rw [FsM.bind_run, hx]; exact hf)
      (filesMapping entries) (filesKeys σ entries) (filesItem σ) g func limit g st (walks_files hl limit g hg hs h0 hd)
    rw [this]
    have hc : ∀ (l : List (Path × (PyGroup ⊕ DatasetObj))) (st : s), (∀ p ∈ l, σ.Member g p.1 p.2) →
        callUntil (fun p => func ((filesMapping entries).relative g p.2) p.2) l st
          = callUntil (fun p => func p.1 p.2) l st := by
      intro l
      induction l with
      | nil => intro _ _; rfl
      | cons p l ih =>
        intro st h
        have hp := h p List.mem_cons_self
        have : (filesMapping entries).relative g p.2 = p.1 := by
          show PyGroup.relative g p.2 = p.1
          rw [← fsRelative_append g.handle.path p.1 hp.ne_nil, ← hp.path]
          cases p.2 <;> rfl
        simp only [callUntil, this]
        rcases func p.1 p.2 st with ⟨_ | r, st'⟩
        · exact ih st' fun q hq => h q (List.mem_cons_of_mem _ hq)
        · rfl
    rw [hc _ _ fun p hp => (hm _ _).1 hp]

/-! ### Containers given by a list -/

/-- the container with these entries -/
def Fs.ofList (L : List (Path × Entry)) : Fs := fun q => (L.find? fun p => p.1 == q).map (·.2)

/-- the names in a directory -/
def entriesOf (L : List (Path × Entry)) (p : Path) : List String :=
  L.filterMap fun x => if x.1.dropLast = p then x.1.getLast? else none

theorem ofList_ne_none {L : List (Path × Entry)} {q : Path} : Fs.ofList L q ≠ none ↔ q ∈ L.map (·.1) := by
  unfold Fs.ofList
  rw [← Option.isSome_iff_ne_none, Option.isSome_map, List.find?_isSome, List.mem_map]
  simp

theorem Fs.ofList_lists {L : List (Path × Entry)} (h : (L.map (·.1)).Nodup) : (Fs.ofList L).Lists (entriesOf L) := by
  have hk : ∀ (q p : Path) (n : String), (if q.dropLast = p then q.getLast? else none) = some n ↔ q = p ++ [n] := by
    intro q p n
    constructor
    · intro e
      split at e
      · rename_i hd
        obtain ⟨hne, hq⟩ := List.getLast?_eq_some_iff.1 e
        rw [hq, List.dropLast_concat] at hd
        rw [hq, hd]
      · cases e
    · rintro rfl
      rw [List.dropLast_concat, if_pos rfl, List.getLast?_concat]
  intro p
  constructor
  · unfold entriesOf
    rw [List.Nodup, List.pairwise_map] at h
    rw [List.Nodup, List.pairwise_filterMap]
    refine h.imp fun {x y} hxy a ha b hb e => hxy ?_
    rw [(hk _ _ _).1 ha, (hk _ _ _).1 hb, e]
  · intro n
    rw [ofList_ne_none]
    unfold entriesOf
    rw [List.mem_filterMap, List.mem_map]
    constructor
    · rintro ⟨x, hx, e⟩
      exact ⟨x, hx, (hk _ _ _).1 e⟩
    · rintro ⟨x, hx, e⟩
      exact ⟨x, hx, (hk _ _ _).2 e⟩

/-- A zarr container with a group that holds a group and a dataset -/
def exTree : List (Path × Entry) :=
  [([], .dir), ([".zgroup"], .doc (.obj [("zarr_format", .int 2)])), (["g"], .dir),
    (["g", ".zgroup"], .doc (.obj [("zarr_format", .int 2)])), (["g", "h"], .dir),
    (["g", "h", ".zgroup"], .doc (.obj [("zarr_format", .int 2)])), (["g", "d"], .dir),
    (["g", "d", ".zarray"], .doc (match exDs.info.toJson with | .ok j => j | _ => .null))]

def exTreeRoot : PyGroup := ⟨⟨[], .a⟩, 2⟩

/-- its dataset -/
def exTreeDs : DatasetObj := { exDs with handle := { exDs.handle with path := ["g", "d"] } }

theorem Fs.Member.dir {σ : Fs} {g : PyGroup} {rel : Path} {obj : PyGroup ⊕ DatasetObj} (h : σ.Member g rel obj) :
    σ (g.handle.path ++ rel) = some .dir := by
  induction h with
  | group h => exact h
  | dataset h => exact h
  | @deeper g n rel _ _ _ _ ih =>
    rw [← ih]
    show _ = σ ((g.handle.path ++ [n]) ++ rel)
    rw [List.append_assoc]
    rfl

theorem Fs.Member.same {σ : Fs} {g g' : PyGroup} {rel : Path} (h : σ.Member g rel (.inl g')) :
    g' = ⟨⟨g.handle.path ++ rel, g.handle.mode⟩, g.zarrFormat⟩ := by
  generalize ho : (Sum.inl g' : PyGroup ⊕ DatasetObj) = o at h
  induction h with
  | group => cases ho; rfl
  | dataset => cases ho
  | @deeper g n rel _ _ _ _ ih =>
    rw [ih ho]
    show (⟨⟨(g.handle.path ++ [n]) ++ rel, _⟩, _⟩ : PyGroup) = _
    rw [List.append_assoc]
    rfl

theorem exTree_dirs {q : Path} (h : Fs.ofList exTree q = some .dir) : q ∈ [[], ["g"], ["g", "h"], ["g", "d"]] := by
  unfold Fs.ofList at h
  obtain ⟨p, hp, e⟩ := Option.map_eq_some_iff.1 h
  have h1 := List.mem_of_find?_eq_some hp
  have h2 := List.find?_some hp
  have h2 : p.1 = q := by simpa using h2
  subst h2
  simp only [exTree, List.mem_cons, List.not_mem_nil, or_false] at h1
  rcases h1 with rfl | rfl | rfl | rfl | rfl | rfl | rfl | rfl <;>
    first | (cases e; done) | simp

theorem exTree_g : (Fs.ofList exTree).Member exTreeRoot ["g"] (.inl ⟨⟨["g"], .a⟩, 2⟩) :=
  .group rfl (by decide +kernel)

theorem exTree_h : (Fs.ofList exTree).Member ⟨⟨["g"], .a⟩, 2⟩ ["h"] (.inl ⟨⟨["g", "h"], .a⟩, 2⟩) :=
  .group rfl (by decide +kernel)

theorem exTree_d : (Fs.ofList exTree).Member ⟨⟨["g"], .a⟩, 2⟩ ["d"] (.inr exTreeDs) :=
  .dataset rfl (by decide +kernel) (by decide +kernel)

theorem exTree_sound : (Fs.ofList exTree).Sound exTreeRoot := by
  intro g' hg' n hn
  have hp : g' = ⟨⟨g'.handle.path, .a⟩, 2⟩ := by
    rcases hg' with rfl | ⟨rel, h⟩
    · rfl
    · rw [h.same]
      rfl
  have hd := exTree_dirs hn
  rw [hp]
  generalize g'.handle.path = p at hd ⊢
  simp only [List.mem_cons, List.not_mem_nil, or_false] at hd
  rcases hd with h | h | h | h
  · cases p <;> cases h
  · have : p = [] ∧ n = "g" := by
      cases p with
      | nil => exact ⟨rfl, by injection h⟩
      | cons a p => injection h with _ h; cases p <;> cases h
    obtain ⟨rfl, rfl⟩ := this
    exact ⟨_, exTree_g⟩
  · obtain ⟨rfl, h⟩ := List.append_inj' (show p ++ [n] = ["g"] ++ ["h"] from h) rfl
    cases h
    exact ⟨_, exTree_h⟩
  · obtain ⟨rfl, h⟩ := List.append_inj' (show p ++ [n] = ["g"] ++ ["d"] from h) rfl
    cases h
    exact ⟨_, exTree_d⟩

/-- The hypotheses of `c58_visititems` are met; a callback that collects the paths is called for `g`, `g/h`, `g/d`. -/
example : ∃ ms : List (Path × (PyGroup ⊕ DatasetObj)),
    (∀ rel obj, (rel, obj) ∈ ms ↔ (Fs.ofList exTree).Member exTreeRoot rel obj) ∧
    (["g", "d"], .inr exTreeDs) ∈ ms ∧
    (visitItems (filesMapping (entriesOf exTree)) exTreeRoot (fun p _ st => (none, st ++ [p])) 1000 exTreeRoot []
      (Fs.ofList exTree) : Res (Option Unit × List Path) × Fs).1 = .ok (none, [["g"], ["g", "h"], ["g", "d"]]) := by
  obtain ⟨ms, _, h2, _⟩ := c58_visititems (limit := 1000) (Fs.ofList_lists (L := exTree) (by decide))
    (g := exTreeRoot) rfl exTree_sound (by decide) (by
      intro rel g' h
      have := exTree_dirs h.dir
      have hr : exTreeRoot.handle.path ++ rel = rel := rfl
      rw [hr] at this
      simp only [List.mem_cons, List.not_mem_nil, or_false] at this
      rcases this with rfl | rfl | rfl | rfl <;> decide)
  exact ⟨ms, h2, (h2 _ _).2 (exTree_g.trans exTree_d), by decide +kernel⟩

/-- **C58, negation**: after `create_group("a/b")` in a zarr container, which returns, `visititems` throws: the
    directory `a` is taken for a dataset. -/
theorem c58_implicit_parent_counterexample :
    ∃ (g g' : PyGroup) (σ σ' : Fs) (entries : Path → List String), σ.WF ∧
      g.createGroup ⟨false, ["a", "b"]⟩ σ = (.ok g', σ') ∧ σ'.Lists entries ∧
      ∀ (s v : Type) (func : Path → PyGroup ⊕ DatasetObj → s → Option v × s) (st : s) (limit : Nat),
        (visitItems (filesMapping entries) g func limit g st σ').1 = .throw .runtimeError := by
  let doc : Entry := .doc (.obj [("zarr_format", .int 2)])
  let L : List (Path × Entry) := [([], .dir), ([".zgroup"], doc), (["a"], .dir), (["a", "b"], .dir),
    (["a", "b", ".zgroup"], doc)]
  have h : exTreeRoot.createGroup ⟨false, ["a", "b"]⟩ exZarr = (.ok ⟨⟨["a", "b"], .a⟩, 2⟩, Fs.ofList L) := by
    refine Prod.ext (by decide +kernel) (funext fun q => ?_)
    show (if q = ["a", "b", ".zgroup"] then some doc else if q <+: ["a", "b"] then some Entry.dir else exZarr q) = Fs.ofList L q
    by_cases h1 : q = ["a", "b", ".zgroup"]
    · subst h1; rfl
    by_cases h2 : q = ["a", "b"]
    · subst h2; rfl
    by_cases h3 : q = ["a"]
    · subst h3; rfl
    by_cases h4 : q = [".zgroup"]
    · subst h4; rfl
    by_cases h5 : q = []
    · subst h5; rfl
    have hp : ¬ q <+: ["a", "b"] := by
      rw [List.prefix_iff_eq_take]
      rcases q with _ | ⟨x, _ | ⟨y, _ | ⟨z, q⟩⟩⟩
      · exact fun _ => h5 rfl
      · intro e; exact h3 (e.trans rfl)
      · intro e; exact h2 (e.trans rfl)
      · intro e; exact h2 (e.trans (by simp))
    have hn : Fs.ofList L q = none := by
      refine Classical.byContradiction fun hn => ?_
      have := ofList_ne_none.1 hn
      simp only [L, List.map_cons, List.map_nil, List.mem_cons, List.not_mem_nil, or_false] at this
      rcases this with h | h | h | h | h
      · exact h5 h
      · exact h4 h
      · exact h3 h
      · exact h2 h
      · exact h1 h
    rw [hn, if_neg h1, if_neg hp]
    unfold exZarr
    rw [if_neg h5, if_neg h4]
  refine ⟨exTreeRoot, _, exZarr, _, entriesOf L, exZarr_wf, h, Fs.ofList_lists (by decide), ?_⟩
  intro s v func st limit
  cases limit with
  | zero => rfl
  | succ limit =>
    have hk : (filesMapping (entriesOf L)).keys exTreeRoot (Fs.ofList L) = (.ok ["a"], Fs.ofList L) :=
      FsM.run_eq (by decide +kernel)
    have hi : ((filesMapping (entriesOf L)).item exTreeRoot "a" (Fs.ofList L)).1 = .throw .runtimeError := by
      decide +kernel
    show (((filesMapping (entriesOf L)).keys exTreeRoot >>= fun names => _) (Fs.ofList L)).1 = _
    rw [FsM.bind_run, hk]
    show (((filesMapping (entriesOf L)).item exTreeRoot "a" >>= fun obj => _) (Fs.ofList L)).1 = _
    rw [FsM.bind_run]
    generalize (filesMapping (entriesOf L)).item exTreeRoot "a" (Fs.ofList L) = r at hi ⊢
    obtain ⟨r, σ⟩ := r
    cases hi
    rfl

theorem follow_names : ∀ {ns : Path}, (∀ n ∈ ns, n ≠ ".." ∧ n ≠ ".") → ∀ p : Path, follow p ns = p ++ ns
  | [], _, p => (List.append_nil p).symm
  | n :: ns, h, p => by
    obtain ⟨h1, h2⟩ := h n (List.mem_cons_self ..)
    rw [follow, if_neg h1, if_neg h2, follow_names (fun m hm => h m (List.mem_cons_of_mem _ hm)), List.append_assoc]
    rfl

theorem follow_append : ∀ (ms ns p : Path), follow p (ms ++ ns) = follow (follow p ms) ns
  | [], _, _ => rfl
  | _ :: ms, ns, _ => follow_append ms ns _

theorem follow_up : ∀ (q p : Path), follow (p ++ q) (q.map fun _ => "..") = p
  | [], p => List.append_nil p
  | a :: q, p => by
    rw [List.map_cons, follow, if_pos rfl]
    have e : (p ++ a :: q).dropLast = p ++ (a :: q).dropLast := List.dropLast_append_cons
    have hl : (q.map fun _ => "..") = ((a :: q).dropLast.map fun _ => "..") := by
      rw [List.map_const', List.map_const']
      simp
    rw [e, hl]
    exact follow_up (a :: q).dropLast p
termination_by q => q.length
decreasing_by simp

theorem follow_fsRelative : ∀ (frm to p : Path), (∀ n ∈ to, n ≠ ".." ∧ n ≠ ".") → follow (p ++ frm) (fsRelative frm to) = p ++ to
  | [], [], p, _ => by
    rw [List.append_nil]
    rfl
  | [], b :: to, p, h => by
    rw [List.append_nil]
    exact follow_names h p
  | a :: frm, [], p, _ => by
    rw [List.append_nil]
    exact follow_up (a :: frm) p
  | a :: frm, b :: to, p, h => by
    rw [fsRelative]
    split
    · rename_i e
      subst e
      have := follow_fsRelative frm to (p ++ [a]) fun n hn => h n (List.mem_cons_of_mem _ hn)
      rw [List.append_assoc, List.append_assoc] at this
      exact this
    · rw [follow_append, follow_up, follow_names h]

/-- **C58, relative paths.**  `relative_path` of any two nodes, also if the second is not below the first, leads from the first to the second. -/
theorem c58_relative_path (g : PyGroup) (o : PyGroup ⊕ DatasetObj)
    (h : ∀ n ∈ (match o with | .inl g' => g'.handle.path | .inr d => d.handle.path), n ≠ ".." ∧ n ≠ ".") :
    follow g.handle.path (g.relative o) = (match o with | .inl g' => g'.handle.path | .inr d => d.handle.path) := by
  cases o with
  | inl g' => exact follow_fsRelative g.handle.path g'.handle.path [] h
  | inr d => exact follow_fsRelative g.handle.path d.handle.path [] h

example : fsRelative ["c", "a", "x"] ["c", "b"] = ["..", "..", "b"] ∧ follow ["c", "a", "x"] ["..", "..", "b"] = ["c", "b"] :=
  ⟨by decide, by decide⟩

end Z5
