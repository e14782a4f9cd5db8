import Verif.Proofs.RaceSteps
import Verif.Props.NodesCrash
import Verif.Props.DeleteChunks

/-!
# C96: several processes that create the same node of a container on files at the same time
-/

namespace Z5.Props
open Spec

variable {Ty : ElemTypes} {C : Container} {L : Libs} {T : Tree Ty} {os : List (Path × DatasetObj)} {σ σ' : Fs} {D : Disk}

/-- where a node can be made -/
structure Place (C : Container) (g ks : Path) (n : String) (σ : Fs) : Prop where
  fresh : ∀ q, C.root ++ (g ++ ks ++ [n]) <+: q → σ q = none
  above : ∀ q, q <+: C.root ++ (g ++ ks ++ [n]) → q ≠ C.root ++ (g ++ ks ++ [n]) → σ q = some .dir
  there : (σ (C.root ++ g)).isSome = true
  zarr : ((σ (C.root ++ g ++ [".zgroup"])).isSome || (σ (C.root ++ g ++ ["zarr.json"])).isSome) = C.isZarr
  apart : ∀ q ∈ [C.root ++ g, C.root ++ g ++ [".zgroup"], C.root ++ g ++ ["zarr.json"]], ¬ C.root ++ (g ++ ks ++ [n]) <+: q

theorem place_of (hL : L.Lawful) (h : History C L Ty T os σ) {g ks : Path} {n : String} (hr : T.IsGroup (g ++ ks)) (hn : PlainName n)
    (hT : T (g ++ ks ++ [n]) = none) : Place C g ks n σ := by
  have hI := Container.inv_of_history hL h
  have hne : T (g ++ ks) ≠ none := by obtain ⟨A, hA⟩ := hr; rw [hA]; exact fun e => by cases e
  have hdir : σ (C.root ++ (g ++ ks)) = some .dir := hI.dir hL hne
  have hgn : T g ≠ none := hI.some_above hne (List.prefix_append ..)
  have hg : ∃ A, T g = some (.group A) := by
    cases e : T g with
    | none => exact absurd e hgn
    | some x =>
      cases x with
      | group A => exact ⟨A, rfl⟩
      | array x =>
        by_cases e' : g = g ++ ks
        · obtain ⟨A, hA⟩ := hr
          rw [← e', e] at hA; cases hA
        · exact absurd (hI.leaf e (List.prefix_append ..) e') hne
  obtain ⟨A, hg⟩ := hg
  have ha := hI.group g A hg
  have hz : ((if (σ (C.root ++ g)).isSome then Res.ok ((σ (C.root ++ g ++ [".zgroup"])).isSome ||
      (σ (C.root ++ g ++ ["zarr.json"])).isSome) else Res.throw .runtimeError), σ) = (Res.ok C.isZarr, σ) := by
    rw [← ha.isZarr .a, Z5.group_isZarr]
    rfl
  have hz := congrArg Prod.fst hz
  refine ⟨?_, ?_, by rw [ha.node.dir]; rfl, ?_, ?_⟩
  · rintro q ⟨t, rfl⟩
    exact hI.wf.below ((hI.known _ n hr hT).2 hn) t
  · intro q hq hne
    rw [← List.append_assoc] at hq hne
    rcases prefix_concat_iff.1 hq with e | e
    · obtain ⟨t, ht⟩ := e
      by_cases h0 : t = []
      · rw [h0, List.append_nil] at ht
        rw [ht, hdir]
      · exact hI.wf q t h0 (by rw [ht, hdir]; exact fun e => by cases e)
    · exact absurd e hne
  · rw [if_pos (by rw [ha.node.dir]; rfl)] at hz
    cases hz' : C.isZarr <;> rw [hz'] at hz <;> exact Res.ok.inj hz
  · have key : ∀ x : Path, (∀ n ∈ x, ¬ PlainName n) → x.length ≤ 1 → ¬ C.root ++ (g ++ ks ++ [n]) <+: C.root ++ g ++ x := by
      intro x hx hl e
      rw [List.append_assoc C.root, Container.append_prefix, List.append_assoc, Container.append_prefix] at e
      have hm : n ∈ x := e.subset (by simp)
      exact hx n hm hn
    intro q hq
    simp only [List.mem_cons, List.not_mem_nil, or_false] at hq
    rcases hq with rfl | rfl | rfl
    · have := key [] (fun n h => by cases h) (by simp)
      rw [List.append_nil] at this
      exact this
    · exact key [".zgroup"] (fun n h => by cases List.mem_singleton.1 h; unfold PlainName; decide) (by simp)
    · exact key ["zarr.json"] (fun n h => by cases List.mem_singleton.1 h; unfold PlainName; decide) (by simp)

/-! ### groups -/

/-- the document of a new group -/
def groupDoc (C : Container) : String × Json :=
  if C.isZarr && C.format == 3 then
    ("zarr.json", .obj [("zarr_format", .int 3), ("node_type", .str "group"), ("attributes", .obj [])])
  else (".zgroup", .obj [("zarr_format", .int C.format)])

def groupRace (C : Container) (g ks : Path) (n : String) (σ : Fs) : Race Unit where
  σ₀ := σ
  P := C.root ++ (g ++ ks ++ [n])
  F := C.root ++ (g ++ ks ++ [n]) ++ [(groupDoc C).1]
  J := (groupDoc C).2
  w := C.isZarr
  reads := C.isZarr && C.format == 3
  Done r := r = .ok ()

theorem early_createGroup {g ks : Path} {n : String} (h : Place C g ks n σ) {m : FileMode} (hm : m ≠ .r) :
    (groupRace C g ks n σ).Early (Stepwise.createGroup D (C.group g m).handle (ks ++ [n]) C.format) := by
  have hpath : (C.group g m).handle.path ++ (ks ++ [n]) = C.root ++ (g ++ ks ++ [n]) := by
    rw [Container.group_path, List.append_assoc]
  refine Race.early_isZarr (X := groupRace C g ks n σ) (root := (C.group g m).handle) h.apart h.there h.zarr ?_
  show (groupRace C g ks n σ).Early (FsProg.bind (Stepwise.createGroupDir ((C.group g m).handle.group (ks ++ [n]))) fun _ =>
    Stepwise.writeGroupMetadata D ((C.group g m).handle.path ++ (ks ++ [n])) C.isZarr C.format)
  have e : Stepwise.createGroupDir ((C.group g m).handle.group (ks ++ [n])) =
      FsProg.bind (FsProg.look (FsM.exist (groupRace C g ks n σ).P)) fun e =>
        if e = true then FsProg.lift (.throw .invalidArgument) else Stepwise.createDirectories (groupRace C g ks n σ).P := by
    show (if m = .r then _ else FsProg.bind (FsProg.look (FsM.exist ((C.group g m).handle.path ++ (ks ++ [n])))) fun e =>
      if e = true then FsProg.lift (.throw .invalidArgument) else
        Stepwise.createDirectories ((C.group g m).handle.path ++ (ks ++ [n]))) = _
    rw [if_neg hm, hpath]
    rfl
  rw [e, hpath]
  refine Race.early_dir h.above (by simp [groupRace]) ?_
  cases hz : C.isZarr with
  | false => exact .inr ⟨hz, .ok (), rfl, rfl⟩
  | true =>
    left
    by_cases h3 : C.format = 3
    · have hd : groupDoc C = ("zarr.json", .obj [("zarr_format", .int 3), ("node_type", .str "group"), ("attributes", .obj [])]) := by
        unfold groupDoc
        rw [hz, h3]
        rfl
      have hX : (groupRace C g ks n σ).F = (groupRace C g ks n σ).P ++ ["zarr.json"] := by
        show _ ++ [(groupDoc C).1] = _
        rw [hd]
        rfl
      have hJ : (groupRace C g ks n σ).J = .obj [("zarr_format", .int 3), ("node_type", .str "group"), ("attributes", .obj [])] := by
        show (groupDoc C).2 = _
        rw [hd]
      have hw : ∀ b, (groupRace C g ks n σ).Mid (Stepwise.writeDoc D ((groupRace C g ks n σ).P ++ ["zarr.json"])
          (.obj [("zarr_format", .int 3), ("node_type", .str "group"), ("attributes", .obj [])])) b true := fun b => by
        have := Race.mid_writeDoc (D := D) hX hz (K := fun _ => .ret (.ok ())) (r := .ok ()) rfl rfl b
        rw [FsProg.bind_ret, hX, hJ] at this
        exact this
      show (groupRace C g ks n σ).Mid (if (true && C.format == 3) = true then Stepwise.writeV3GroupMetadata D (groupRace C g ks n σ).P else _) _ _
      rw [if_pos (by rw [h3]; rfl)]
      refine Race.mid_jsonRead hX (by show (C.isZarr && C.format == 3) = true; rw [hz, h3]; rfl) (hw false) ?_
      rw [hJ]
      exact hw true
    · have hf : (true && C.format == 3) = false := by simpa using h3
      have hd : groupDoc C = (".zgroup", .obj [("zarr_format", .int C.format)]) := by
        unfold groupDoc
        rw [hz, hf]
        rfl
      have hX : (groupRace C g ks n σ).F = (groupRace C g ks n σ).P ++ [".zgroup"] := by
        show _ ++ [(groupDoc C).1] = _
        rw [hd]
        rfl
      have := Race.mid_writeDoc (D := D) hX hz (K := fun _ => .ret (.ok ())) (r := .ok ()) rfl rfl false
      rw [FsProg.bind_ret, hX, show (groupRace C g ks n σ).J = .obj [("zarr_format", .int C.format)] from by
        show (groupDoc C).2 = _
        rw [hd]] at this
      show (groupRace C g ks n σ).Mid (if (true && C.format == 3) = true then _ else
        if true = true then Stepwise.writeDoc D ((groupRace C g ks n σ).P ++ [".zgroup"]) _ else _) _ _
      rw [if_neg (by rw [hf]; decide), if_pos rfl]
      exact this

/-- one call -/
theorem createGroup_once (hL : L.Lawful) (h : History C L Ty T os σ) {g ks : Path} {n : String} (hr : T.IsGroup (g ++ ks)) (hn : PlainName n)
    (hT : T (g ++ ks ++ [n]) = none) {m : FileMode} (hm : m ≠ .r) : ∃ σ', (C.group g m).handle.createGroup (ks ++ [n]) C.format σ = (.ok (), σ') ∧
      History C L Ty (T.add (g ++ ks ++ [n]) (.group fun _ => none)) os σ' := by
  obtain ⟨σ'', e1, e2⟩ := (c66_create_group hL h hr hn m).2.2 hm hT
  unfold PyGroup.createGroup at e1
  split at e1
  · cases e1
  · obtain ⟨_, σ1, e3, e4⟩ := FsM.bind_ok.1 e1
    rw [contains_run] at e3
    cases e3
    split at e4
    · cases e4
    · obtain ⟨_, σ2, e5, e6⟩ := FsM.bind_ok.1 e4
      have e6 : σ2 = σ'' := congrArg Prod.snd e6
      subst e6
      exact ⟨σ2, e5, e2⟩

/-- **C96, groups.**  Any number of processes create the same group at the same time, in any order of their steps.  At every moment all nodes of
the container are there as before.  Each call ends well, or with the error that the group exists, or, for zarr of version 3, with the error
that `zarr.json` could not be parsed.  Once all calls are over, at least one of them has ended well, and the container has the new group, as
after a single call. -/
theorem c96_group (hL : L.Lawful) (h : History C L Ty T os σ) {g ks : Path} {n : String} (hr : T.IsGroup (g ++ ks)) (hn : PlainName n)
    (hT : T (g ++ ks ++ [n]) = none) {ms : List FileMode} (hm : ∀ m ∈ ms, m ≠ .r) (is : List Nat) :
    let s := FsProg.interleave is (ms.map fun m => Stepwise.createGroup D (C.group g m).handle (ks ++ [n]) C.format, σ)
    C.Serves L T (fun _ => True) os s.2 ∧
    (∀ r, .ret r ∈ s.1 → r = .ok () ∨ r = .throw .invalidArgument ∨ (C.layout = .v3 ∧ r = .throw .typeError)) ∧
    ∀ rs, FsProg.Finished s.1 rs → rs ≠ [] → .ok () ∈ rs ∧ History C L Ty (T.add (g ++ ks ++ [n]) (.group fun _ => none)) os s.2 := by
  have hp := place_of hL h hr hn hT
  have hF : (groupRace C g ks n σ).F ≠ (groupRace C g ks n σ).P := by simp [groupRace]
  have hPF : (groupRace C g ks n σ).P <+: (groupRace C g ks n σ).F := List.prefix_append ..
  intro s
  obtain ⟨h1, h2, h3⟩ := Race.race hF hPF hp.fresh (ts := ms.map fun m => Stepwise.createGroup D (C.group g m).handle (ks ++ [n]) C.format)
    (fun t ht => by
      obtain ⟨m, hm', rfl⟩ := List.mem_map.1 ht
      exact early_createGroup hp (hm m hm')) is
  refine ⟨serves_all hL h hT (serves_below hL h hn hr h1.other), fun r hr' => ?_, fun rs hfin hne => ?_⟩
  · rcases h2 r hr' with e | e | ⟨e1, e2⟩
    · exact .inl e
    · exact .inr (.inl e)
    · refine .inr (.inr ⟨?_, e2⟩)
      have e1 : (C.isZarr && C.format == 3) = true := e1
      simp only [Bool.and_eq_true, beq_iff_eq] at e1
      unfold Container.layout Layout.of
      simp [e1.1, e1.2]
  · obtain ⟨⟨r, hr1, hr2⟩, h4⟩ := h3 rs hfin hne
    have hr2 : r = .ok () := hr2
    subst hr2
    refine ⟨hr1, ?_⟩
    obtain ⟨σ1, g1, g2⟩ := createGroup_once hL h hr hn hT (m := .a) (by decide)
    rw [← c75_create_group_complete D _ _ _ (top_dir hL h)] at g1
    obtain ⟨is', his⟩ := files_alone _ g1
    obtain ⟨_, _, k3⟩ := Race.race hF hPF hp.fresh (ts := [Stepwise.createGroup D (C.group g .a).handle (ks ++ [n]) C.format])
      (fun t ht => by cases List.mem_singleton.1 ht; exact early_createGroup hp (by decide)) is'
    have k3 := (k3 [.ok ()] (by show FsProg.Finished (FsProg.interleave is' ([_], σ)).1 _; rw [his]; rfl) (by simp)).2
    have e : s.2 = σ1 := funext fun q => by
      have k3 := k3 q
      have h4 : s.2 q = _ := h4 q
      rw [h4, ← k3]
      show (FsProg.interleave is' ([_], σ)).2 q = _
      rw [his]
    rw [e]
    exact g2

/-! ### datasets -/

theorem assocSet_get {β : Type} : ∀ {l : List (String × β)} {k : String} {v : β}, assocGet l k = some v → assocSet l k v = l
  | [], _, _, h => by cases h
  | (a, b) :: l, k, v, h => by
    unfold assocGet at h
    unfold assocSet
    split at h
    · rename_i e
      cases h
      rw [if_pos e]
    · rename_i e
      rw [if_neg e, assocSet_get h]

theorem set_find {j v : Json} {k : String} (h : j.find k = some v) : j.set k v = .ok j := by
  cases j with
  | obj l => exact congrArg (fun l => Res.ok (Json.obj l)) (assocSet_get h)
  | _ => cases h

def datasetRace (C : Container) (g ks : Path) (n : String) (σ : Fs) (M : Meta) (J : Json) (o : DatasetObj) : Race DatasetObj where
  σ₀ := σ
  P := C.root ++ (g ++ ks ++ [n])
  F := C.root ++ (g ++ ks ++ [n]) ++ [if M.isZarr && M.zarrFormat == 3 then "zarr.json" else if M.isZarr then ".zarray" else "attributes.json"]
  J := J
  w := true
  reads := M.isZarr && M.zarrFormat == 3
  Done r := r = .ok o

theorem early_createDataset {g ks : Path} {n : String} (h : Place C g ks n σ) {m : FileMode} (hm : m ≠ .r) {a : CreateArgs} {M : Meta} {J : Json}
    {o : DatasetObj} (h1 : a.toMeta C.isZarr = .ok M) (h2 : M.toJson = .ok J)
    (h3 : makeDataset ((C.group g m).handle.dataset (ks ++ [n]) a.delimiter a.zarrFormat a.encoding) M = .ok o) :
    (datasetRace C g ks n σ M J o).Early (Stepwise.createDataset D (C.group g m).handle (ks ++ [n]) a) := by
  have hpath : (C.group g m).handle.path ++ (ks ++ [n]) = C.root ++ (g ++ ks ++ [n]) := by
    rw [Container.group_path, List.append_assoc]
  refine Race.early_isZarr (X := datasetRace C g ks n σ M J o) (root := (C.group g m).handle) h.apart h.there h.zarr ?_
  show (datasetRace C g ks n σ M J o).Early (FsProg.bind (.ret (a.toMeta C.isZarr)) _)
  rw [h1]
  show (datasetRace C g ks n σ M J o).Early (FsProg.bind (Stepwise.createDatasetDir
    ((C.group g m).handle.dataset (ks ++ [n]) a.delimiter a.zarrFormat a.encoding)) fun _ =>
    FsProg.bind (Stepwise.writeDatasetMetadata D ((C.group g m).handle.path ++ (ks ++ [n])) M) fun _ =>
      .ret (makeDataset ((C.group g m).handle.dataset (ks ++ [n]) a.delimiter a.zarrFormat a.encoding) M))
  have e : Stepwise.createDatasetDir ((C.group g m).handle.dataset (ks ++ [n]) a.delimiter a.zarrFormat a.encoding) =
      FsProg.bind (FsProg.look (FsM.exist (datasetRace C g ks n σ M J o).P)) fun e =>
        if e = true then FsProg.lift (.throw .invalidArgument) else Stepwise.createDirectories (datasetRace C g ks n σ M J o).P := by
    show (if m = .r then _ else FsProg.bind (FsProg.look (FsM.exist ((C.group g m).handle.path ++ (ks ++ [n])))) fun e =>
      if e = true then FsProg.lift (.throw .invalidArgument) else
        Stepwise.createDirectories ((C.group g m).handle.path ++ (ks ++ [n]))) = _
    rw [if_neg hm, hpath]
    rfl
  rw [e, hpath, h3]
  refine Race.early_dir h.above (by simp [datasetRace]) (.inl ?_)
  have hw : ∀ b, (datasetRace C g ks n σ M J o).Mid (FsProg.bind (Stepwise.writeDoc D (datasetRace C g ks n σ M J o).F J) fun _ => .ret (.ok o)) b true :=
    fun b => Race.mid_writeDoc (X := datasetRace C g ks n σ M J o) (D := D) rfl rfl (K := fun _ => .ret (.ok o)) rfl rfl b
  show (datasetRace C g ks n σ M J o).Mid (FsProg.bind (Stepwise.writeDatasetMetadata D (datasetRace C g ks n σ M J o).P M) fun _ => .ret (.ok o)) _ _
  unfold Stepwise.writeDatasetMetadata
  rw [h2]
  by_cases hc : (M.isZarr && M.zarrFormat == 3) = true
  · have hX : (datasetRace C g ks n σ M J o).F = (datasetRace C g ks n σ M J o).P ++ ["zarr.json"] := by
      show _ ++ [if _ then _ else _] = _
      rw [if_pos hc]
      rfl
    rw [if_pos hc]
    show (datasetRace C g ks n σ M J o).Mid (FsProg.bind (FsProg.bind _ _) _) _ _
    rw [FsProg.bind_assoc]
    refine Race.mid_jsonRead hX hc ?_ ?_
    · rw [← hX]
      exact hw false
    · rw [← hX]
      show (datasetRace C g ks n σ M J o).Mid (FsProg.bind (FsProg.bind (FsProg.lift (Res.ok J)) fun j => _) _) _ _
      cases hf : J.find "attributes" with
      | none =>
        have hf : Option.bind (some (datasetRace C g ks n σ M J o).J) (fun e => e.find "attributes") = none := hf
        simp only [hf]
        exact hw true
      | some v =>
        have hf' : Option.bind (some (datasetRace C g ks n σ M J o).J) (fun e => e.find "attributes") = some v := hf
        simp only [hf']
        show (datasetRace C g ks n σ M J o).Mid (FsProg.bind (FsProg.bind (FsProg.lift (J.set "attributes" v)) fun j => _) _) _ _
        rw [set_find hf]
        exact hw true
  · rw [if_neg hc]
    have hX : (datasetRace C g ks n σ M J o).F = (datasetRace C g ks n σ M J o).P ++ [if M.isZarr = true then ".zarray" else "attributes.json"] := by
      show _ ++ [if _ then _ else _] = _
      rw [if_neg hc]
      rfl
    rw [← hX]
    exact hw false

/-- what a call that ends well has made -/
theorem dataset_parts {g ks : Path} {n : String} (hp : Place C g ks n σ) {m : FileMode} {a : CreateArgs} {o : DatasetObj} {σ1 : Fs}
    (h1 : (C.group g m).handle.createDataset (ks ++ [n]) a σ = (.ok o, σ1)) :
    m ≠ .r ∧ ∃ M J, a.toMeta C.isZarr = .ok M ∧ M.toJson = .ok J ∧ o.info = M ∧
    makeDataset ((C.group g m).handle.dataset (ks ++ [n]) a.delimiter a.zarrFormat a.encoding) M = .ok o := by
  have hz : (C.group g m).handle.isZarr σ = (.ok C.isZarr, σ) := by
    rw [Z5.group_isZarr]
    show ((if (σ (C.root ++ g)).isSome then Res.ok ((σ (C.root ++ g ++ [".zgroup"])).isSome ||
      (σ (C.root ++ g ++ ["zarr.json"])).isSome) else Res.throw .runtimeError), σ) = _
    rw [if_pos hp.there, hp.zarr]
  unfold GroupHandle.createDataset at h1
  obtain ⟨z, σ2, e1, e2⟩ := FsM.bind_ok.1 h1
  rw [hz] at e1
  cases e1
  obtain ⟨M, σ3, e3, e4⟩ := FsM.bind_ok.1 e2
  have e3 : (a.toMeta C.isZarr, σ) = (.ok M, σ3) := e3
  have e31 : a.toMeta C.isZarr = .ok M := congrArg Prod.fst e3
  unfold DatasetHandle.createDataset at e4
  obtain ⟨_, σ4, e5, e6⟩ := FsM.bind_ok.1 e4
  obtain ⟨_, σ5, e7, e8⟩ := FsM.bind_ok.1 e6
  have e8 : (makeDataset ((C.group g m).handle.dataset (ks ++ [n]) a.delimiter a.zarrFormat a.encoding) M, σ5) = (.ok o, σ1) := e8
  have e81 := congrArg Prod.fst e8
  have hm : m ≠ .r := fun hm => by
    unfold DatasetHandle.create at e5
    rw [if_pos (show ((C.group g m).handle.dataset (ks ++ [n]) a.delimiter a.zarrFormat a.encoding).mode = .r from hm)] at e5
    cases e5
  have hJ : ∃ J, M.toJson = .ok J := by
    unfold writeDatasetMetadata at e7
    split at e7
    · obtain ⟨_, _, _, e9⟩ := FsM.bind_ok.1 e7
      obtain ⟨J, _, e10, _⟩ := FsM.bind_ok.1 e9
      exact ⟨J, congrArg Prod.fst e10⟩
    · obtain ⟨J, _, e10, _⟩ := FsM.bind_ok.1 e7
      exact ⟨J, congrArg Prod.fst e10⟩
  obtain ⟨J, hJ⟩ := hJ
  exact ⟨hm, M, J, e31, hJ, (makeDataset_facts e81).1, e81⟩

/-- **C96, datasets.**  Any number of processes create the same dataset, with the same arguments, at the same time, in any order of their steps;
a single call would end well, with the object `o` and the file system `σ1`.  At every moment all nodes of the container are there as before.
Each call ends with this object, or with the error that the dataset exists, or, for zarr of version 3, with the error that `zarr.json` could
not be parsed.  Once all calls are over, at least one of them has ended well, and the file system is that after a single call. -/
theorem c96_dataset (hL : L.Lawful) (h : History C L Ty T os σ) {g ks : Path} {n : String} (hr : T.IsGroup (g ++ ks)) (hn : PlainName n)
    (hT : T (g ++ ks ++ [n]) = none) {m : FileMode} {a : CreateArgs} {o : DatasetObj} {σ1 : Fs}
    (h1 : (C.group g m).handle.createDataset (ks ++ [n]) a σ = (.ok o, σ1)) (N : Nat) (is : List Nat) :
    let s := FsProg.interleave is (List.replicate N (Stepwise.createDataset D (C.group g m).handle (ks ++ [n]) a), σ)
    C.Serves L T (fun _ => True) os s.2 ∧
    (∀ r, .ret r ∈ s.1 → r = .ok o ∨ r = .throw .invalidArgument ∨
      (o.info.isZarr = true ∧ o.info.zarrFormat = 3 ∧ r = .throw .typeError)) ∧
    ∀ rs, FsProg.Finished s.1 rs → rs ≠ [] → .ok o ∈ rs ∧ s.2 = σ1 := by
  have hp := place_of hL h hr hn hT
  have hI := Container.inv_of_history hL h
  obtain ⟨hm, M, J, h2, h3, h5, h4⟩ := dataset_parts hp h1
  have hE := early_createDataset (D := D) hp hm h2 h3 h4
  have hF : (datasetRace C g ks n σ M J o).F ≠ (datasetRace C g ks n σ M J o).P := by simp [datasetRace]
  have hPF : (datasetRace C g ks n σ M J o).P <+: (datasetRace C g ks n σ M J o).F := List.prefix_append ..
  intro s
  obtain ⟨k1, k2, k3⟩ := Race.race hF hPF hp.fresh (ts := List.replicate N (Stepwise.createDataset D (C.group g m).handle (ks ++ [n]) a))
    (fun t ht => by rw [List.eq_of_mem_replicate ht]; exact hE) is
  refine ⟨serves_all hL h hT (serves_below hL h hn hr k1.other), fun r hr' => ?_, fun rs hfin hne => ?_⟩
  · rcases k2 r hr' with e | e | ⟨e1, e2⟩
    · exact .inl e
    · exact .inr (.inl e)
    · have e1 : (M.isZarr && M.zarrFormat == 3) = true := e1
      simp only [Bool.and_eq_true, beq_iff_eq] at e1
      rw [h5]
      exact .inr (.inr ⟨e1.1, e1.2, e2⟩)
  · obtain ⟨⟨r, hr1, hr2⟩, k4⟩ := k3 rs hfin hne
    have hr2 : r = .ok o := hr2
    subst hr2
    refine ⟨hr1, ?_⟩
    rw [← c75_create_dataset_complete D _ _ _ (top_dir hL h)] at h1
    obtain ⟨is', his⟩ := files_alone _ h1
    obtain ⟨_, _, k5⟩ := Race.race hF hPF hp.fresh (ts := [Stepwise.createDataset D (C.group g m).handle (ks ++ [n]) a])
      (fun t ht => by cases List.mem_singleton.1 ht; exact hE) is'
    have k5 := (k5 [.ok o] (by show FsProg.Finished (FsProg.interleave is' ([_], σ)).1 _; rw [his]; rfl) (by simp)).2
    funext q
    have k5 := k5 q
    have k4 : s.2 q = _ := k4 q
    rw [k4, ← k5]
    show (FsProg.interleave is' ([_], σ)).2 q = _
    rw [his]

/-! ### what goes wrong, and examples -/

/-- the shape of the dataset of an outcome -/
def shapeOf : Res DatasetObj → List Nat
  | .ok o => o.info.shape
  | _ => []

/-- **C96 is false of different datasets.**  Two processes create datasets of different shapes with the same name.  Both calls can end well; the
object of the first does not fit the dataset that is there then. -/
theorem c96_different_counterexample : ∃ (D : Disk) (a b : CreateArgs) (σ : Fs) (is : List Nat),
    let s := FsProg.interleave is ([Stepwise.createDataset D exRoot ["d"] a, Stepwise.createDataset D exRoot ["d"] b], σ)
    (s.1.map fun t => t.outcome.map shapeOf) = [some [5, 4], some [9, 9]] ∧ shapeOf (exRoot.openDataset ["d"] s.2).1 = [9, 9] :=
  ⟨exDisk, exArgs, { exArgs with shape := [9, 9] }, exZarr,
    List.replicate 4 0 ++ List.replicate 4 1 ++ List.replicate 8 0 ++ List.replicate 8 1, by decide +kernel⟩

/-- **C96: the third outcome.**  Two processes create the same group of zarr of version 3.  One of them fails, although not because the group
exists: it has read the document that the other one was writing. -/
theorem c96_torn_counterexample : ∃ (D : Disk) (σ : Fs) (is : List Nat),
    let s := FsProg.interleave is ([Stepwise.createGroup D exRoot ["g"] 3, Stepwise.createGroup D exRoot ["g"] 3], σ)
    s.1.map FsProg.outcome = [some (.ok ()), some (.throw .typeError)] :=
  ⟨exDisk, fun q => if q = [] then some .dir else if q = ["zarr.json"] then
      some (.doc (.obj [("zarr_format", .int 3), ("node_type", .str "group"), ("attributes", .obj [])])) else none,
    List.replicate 4 0 ++ List.replicate 4 1 ++ List.replicate 5 0 ++ List.replicate 8 1 ++ List.replicate 8 0, by decide +kernel⟩

theorem length_files {α : Type} : ∀ (is : List Nat) (ts : List (FsProg α)) (σ : Fs), (FsProg.interleave is (ts, σ)).1.length = ts.length
  | [], _, _ => rfl
  | i :: is, ts, σ => by
    show (FsProg.interleave is (FsProg.step i (ts, σ))).1.length = _
    rw [length_files is]
    unfold FsProg.step
    split
    · exact List.length_set ..
    · rfl

/-- The hypotheses of `c96_group` and `c96_dataset` hold: three processes create the group `x` of a new container, then five the dataset `d`. -/
example : ∃ is rs is' rs' o,
    let s := FsProg.interleave is ([FileMode.a, .rp, .a].map fun m => Stepwise.createGroup exDisk (exC.group [] m).handle ["x"] 2, exCfs)
    let s' := FsProg.interleave is' (List.replicate 5 (Stepwise.createDataset exDisk (exC.group [] .a).handle ["d"] exArgs), exCfs)
    FsProg.Finished s.1 rs ∧ .ok () ∈ rs ∧ (∃ T : Tree exTypes, History exC exLibs exTypes T [] s.2 ∧ T.IsGroup ["x"]) ∧
    FsProg.Finished s'.1 rs' ∧ .ok o ∈ rs' ∧ s'.2 = ((exC.group [] .a).handle.createDataset ["d"] exArgs exCfs).2 := by
  obtain ⟨is, rs, h1⟩ := FsProg.exists_finished ([FileMode.a, .rp, .a].map fun m => Stepwise.createGroup exDisk (exC.group [] m).handle ["x"] 2, exCfs)
  obtain ⟨is', rs', h2⟩ := FsProg.exists_finished (List.replicate 5 (Stepwise.createDataset exDisk (exC.group [] .a).handle ["d"] exArgs), exCfs)
  have hne : ∀ {α : Type} {is : List Nat} {ts : List (FsProg α)} {σ : Fs} {rs : List (Res α)}, ts ≠ [] →
      FsProg.Finished (FsProg.interleave is (ts, σ)).1 rs → rs ≠ [] := by
    intro α is ts σ rs hts h e
    have h := congrArg List.length h
    rw [List.length_map, length_files, e] at h
    exact hts (List.length_eq_zero_iff.1 h)
  obtain ⟨o, ho⟩ := ok_of (r := ((exC.group [] .a).handle.createDataset ["d"] exArgs exCfs).1) (by decide +kernel)
  have g1 := (c96_group (D := exDisk) (exLibs_lawful _) exCfs_history (g := []) (ks := []) (n := "x") ⟨_, rfl⟩ (by unfold PlainName; decide) rfl
    (ms := [.a, .rp, .a]) (by decide) is).2.2 rs h1 (hne (by simp) h1)
  have g2 := (c96_dataset (D := exDisk) (exLibs_lawful _) exCfs_history (g := []) (ks := []) (n := "d") ⟨_, rfl⟩ (by unfold PlainName; decide) rfl
    (m := .a) (a := exArgs) (o := o) (σ1 := ((exC.group [] .a).handle.createDataset ["d"] exArgs exCfs).2) (Prod.ext ho rfl) 5 is').2.2 rs' h2
    (hne (by simp) h2)
  exact ⟨is, rs, is', rs', o, h1, g1.1, ⟨_, g1.2, _, rfl⟩, h2, g2⟩

end Z5.Props
