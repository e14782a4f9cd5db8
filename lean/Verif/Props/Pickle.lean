import Verif.Proofs.Pickle
import Verif.Props.Confined

/-!
# C69: Unpickling gives the same object and changes nothing
-/

namespace Z5.Props

open Spec

theorem unpickleFile_keeps (f : PickledFile) : FsM.Keeps Eq (unpickleFile f) := by
  have hI := eq_steps
  unfold unpickleFile
  cases pyFileModes.lookup f.mode with
  | none => exact FsM.Keeps.lift hI _
  | some m =>
    refine FsM.Keeps.bind hI (FsM.Keeps.group_isZarr hI _) fun z => ?_
    refine FsM.Keeps.ite (FsM.Keeps.bind hI ?_ fun i => FsM.Keeps.lift hI _)
      (FsM.Keeps.bind hI (FsM.Keeps.lift hI _) fun i => FsM.Keeps.lift hI _)
    intro σ
    have := FsM.Keeps.readMetadata hI ⟨f.path, m⟩ σ
    unfold pyFormatOr2
    generalize GroupHandle.readMetadata _ σ = r at this
    obtain ⟨r, σ'⟩ := r
    cases r <;> exact this

theorem obj_getItem_keeps (o : PyObj) (n : PyName) : FsM.Keeps Eq (o.getItem n) := by
  have hI := eq_steps
  unfold PyObj.getItem
  cases o.asGroup with
  | none => exact FsM.Keeps.lift hI _
  | some gs =>
    refine FsM.Keeps.bind hI (FsM.Keeps.getItem hI _ _) fun r => ?_
    cases r <;> exact FsM.Keeps.lift hI _

theorem navigateParts_keeps : ∀ (ps : List (List Char)) (o : PyObj), FsM.Keeps Eq (navigateParts o ps)
  | [], _ => FsM.Keeps.lift eq_steps _
  | p :: ps, o => FsM.Keeps.bind eq_steps (obj_getItem_keeps o _) fun o' => navigateParts_keeps ps o'

theorem navigate_keeps (o : PyObj) (n : List Char) : FsM.Keeps Eq (navigate o n) := by
  unfold navigate
  exact FsM.Keeps.ite (FsM.Keeps.lift eq_steps _) (navigateParts_keeps _ _)

/-- **C69.**  `pickle.loads` changes nothing in the file system, whatever was pickled, whatever the file system holds by now,
    and however it ends; also for a file that was opened in mode `w`. -/
theorem c69_reads_only (P : Pickled) (σ : Fs) : (unpickle P σ).2 = σ := by
  have hI := eq_steps
  have : FsM.Keeps Eq (unpickle P) := by
    cases P with
    | file f => exact unpickleFile_keeps f
    | group f n => exact FsM.Keeps.bind hI (unpickleFile_keeps f) fun o => navigate_keeps o n
    | dataset f n t =>
      exact FsM.Keeps.bind hI (unpickleFile_keeps f) fun o =>
        FsM.Keeps.bind hI (navigate_keeps o n) fun o => FsM.Keeps.lift hI _
  exact (this σ).symm

theorem pyFormatOr2_of_check {g g' : PyGroup} {σ : Fs} (hz : g.handle.isZarr σ = (.ok true, σ))
    (h : g.checkVersion σ = (.ok g', σ)) : pyFormatOr2 g.handle σ = (.ok g'.zarrFormat, σ) := by
  unfold PyGroup.checkVersion at h
  obtain ⟨j, σ1, h1, h⟩ := FsM.bind_ok.1 h
  have e := FsM.Keeps.readMetadata eq_steps g.handle σ
  rw [h1] at e
  subst e
  obtain ⟨z, σ2, h2, h⟩ := FsM.bind_ok.1 h
  rw [hz] at h2
  cases h2
  simp only [if_true] at h
  unfold pyFormatOr2
  rw [h1]
  cases e : j.find "zarr_format" with
  | none => rw [e] at h; cases h
  | some v =>
    rw [e] at h
    obtain ⟨i, σ3, h3, h⟩ := FsM.bind_ok.1 h
    cases h
    have h4 := (FsM.lift_ok.1 h3).1
    simp [e, h4]

theorem modes_lookup (m : FileMode) : pyFileModes.lookup m.printMode = some m := by
  cases m <;> decide

variable {C : Container} {L : Libs} {Ty : ElemTypes} {T : Tree Ty} {os : List (Path × DatasetObj)} {σ : Fs}

/-- The number that unpickled objects have as the version of zarr; for N5 it has no meaning. -/
def unpickledFormat (C : Container) : Int := if C.isZarr then C.format else 2

theorem unpickleFile_ok (hL : L.Lawful) (hC : C.Ok) (h : History C L Ty T os σ) (m : FileMode) (s : String) :
    unpickleFile (pickleFile (C.group [] m, s)) σ = (.ok (.file ⟨⟨C.root, m⟩, unpickledFormat C⟩ s), σ) := by
  have hi := Container.inv_of_history hL h
  obtain ⟨A, hA, _⟩ := hi.top
  have hz := hi.isZarr ⟨A, hA⟩ m
  have hs := (supported_of_history hL hC h).2
  have hr : (C.group [] m).handle = ⟨C.root, m⟩ := by simp [Container.group]
  unfold unpickleFile pickleFile unpickledFormat
  rw [hr] at hz ⊢
  simp only [modes_lookup]
  rw [FsM.bind_run, hz]
  cases e : C.isZarr with
  | true =>
    rw [e, if_pos rfl] at hs
    rw [e] at hz
    simp only [if_true]
    rw [FsM.bind_run, pyFormatOr2_of_check (g := ⟨⟨C.root, m⟩, 0⟩) hz (checkVersion_supported hs)]
    rfl
  | false => rfl

/-- **C69.**  A pickled file object becomes a file object at the same path, with the same mode and separator. -/
theorem c69_file (hL : L.Lawful) (hC : C.Ok) (h : History C L Ty T os σ) (m : FileMode) (s : String) :
    ∃ g, unpickle (PyObj.file (C.group [] m) s).pickle σ = (.ok (.file g s), σ) ∧ g.handle = ⟨C.root, m⟩ ∧
      (C.isZarr = true → g.zarrFormat = C.format) := by
  refine ⟨_, unpickleFile_ok hL hC h m s, rfl, fun e => ?_⟩
  show unpickledFormat C = _
  unfold unpickledFormat
  rw [if_pos e]

theorem not_ub_bind {α β : Type} {m : FsM α} {f : α → FsM β} (hm : ∀ σ, (m σ).1 ≠ .ub) (hf : ∀ a σ, (f a σ).1 ≠ .ub) (σ : Fs) :
    ((m >>= f) σ).1 ≠ .ub := by
  rw [FsM.bind_run]
  have := hm σ
  rcases e : m σ with ⟨r, σ'⟩
  rw [e] at this
  cases r with
  | ok a => exact hf a σ'
  | throw e => exact fun h => by cases h
  | ub => exact absurd rfl this

theorem readMetadata_not_ub (g : GroupHandle) (σ : Fs) : (g.readMetadata σ).1 ≠ .ub := by
  have hpure : ∀ {α : Type} (a : α) (σ : Fs), ((pure a : FsM α) σ).1 ≠ .ub := fun a σ h => by cases h
  have hex : ∀ p σ, (FsM.exist p σ).1 ≠ .ub := fun p σ h => by rw [FsM.exist_run] at h; cases h
  have hparse : ∀ p σ, (FsM.parse p σ).1 ≠ .ub := fun p σ h => by
    rw [parse_run] at h
    cases e : σ.docAt p <;> rw [e] at h <;> cases h
  unfold GroupHandle.readMetadata
  refine not_ub_bind (fun σ h => ?_) (fun z σ => ?_) σ
  · rw [group_isZarr] at h
    dsimp only at h
    split at h <;> cases h
  · split
    · refine not_ub_bind (not_ub_bind (hex _) fun b σ => ?_) (fun n => not_ub_bind (hparse _) fun j σ => ?_) σ
      · cases b <;> exact hpure _ _
      · cases j <;> dsimp only <;> first
          | exact fun h => by cases h
          | (generalize Json.find _ _ = o; cases o <;> exact hpure _ _)
    · refine not_ub_bind (hparse _) (fun j σ => ?_) σ
      cases j.find "n5" <;> exact hpure _ _

/-- **C69.**  A file object is unpickled as long as its directory exists, whatever happened to the metadata of the file. -/
theorem c69_file_exists (g : PyGroup) (s : String) {σ : Fs} (h : σ g.handle.path ≠ none) :
    ∃ f, unpickle (PyObj.file g s).pickle σ = (.ok (.file ⟨g.handle, f⟩ s), σ) := by
  have hp : ∀ g : GroupHandle, ∃ f, pyFormatOr2 g σ = (.ok f, σ) := by
    intro g
    have e := FsM.Keeps.readMetadata eq_steps g σ
    have hu : (g.readMetadata σ).1 ≠ .ub := readMetadata_not_ub g σ
    unfold pyFormatOr2
    rcases hr : g.readMetadata σ with ⟨r, σ'⟩
    rw [hr] at e hu
    dsimp only at e hu
    subst e
    cases r with
    | throw e => exact ⟨2, rfl⟩
    | ub => exact absurd rfl hu
    | ok j =>
      dsimp only
      split
      · exact ⟨_, rfl⟩
      · exact ⟨2, rfl⟩
  show ∃ f, unpickleFile (pickleFile (g, s)) σ = _
  unfold unpickleFile pickleFile
  simp only [modes_lookup]
  rw [FsM.bind_run, group_isZarr, if_pos (by simpa [Option.isSome_iff_ne_none] using h)]
  dsimp only
  split
  · obtain ⟨f, hf⟩ := hp g.handle
    refine ⟨f, ?_⟩
    rw [FsM.bind_run, show pyFormatOr2 ⟨g.handle.path, g.handle.mode⟩ σ = _ from hf]
    rfl
  · exact ⟨2, rfl⟩

/-- a container whose metadata were damaged -/
example : ∃ f, unpickle (PyObj.file ⟨exRoot, 2⟩ "/").pickle (exZarr.set [".zgroup"] (some (.file [])))
    = (.ok (.file ⟨exRoot, f⟩ "/"), exZarr.set [".zgroup"] (some (.file []))) :=
  c69_file_exists ⟨exRoot, 2⟩ "/" (by intro e; cases e)

/-- The version of zarr that an object has does not matter for what it finds. -/
theorem getItem_format (h : GroupHandle) (f f' : Int) (n : PyName) (σ : Fs) :
    (PyGroup.getItem ⟨h, f'⟩ n σ) = (match PyGroup.getItem ⟨h, f⟩ n σ with
      | (.ok (.inl g), σ') => (.ok (.inl ⟨g.handle, f'⟩), σ')
      | (.ok (.inr d), σ') => (.ok (.inr d), σ')
      | (.throw e, σ') => (.throw e, σ')
      | (.ub, σ') => (.ub, σ')) := by
  unfold PyGroup.getItem
  rw [FsM.bind_run, FsM.bind_run]
  have : PyGroup.contains ⟨h, f'⟩ n = PyGroup.contains ⟨h, f⟩ n := rfl
  rw [this]
  generalize PyGroup.contains ⟨h, f⟩ n σ = r
  obtain ⟨r, σ'⟩ := r
  cases r with
  | throw e => rfl
  | ub => rfl
  | ok b =>
    cases b with
    | false => rfl
    | true =>
      simp only [Bool.not_true, Bool.false_eq_true, if_false]
      rw [FsM.bind_run, FsM.bind_run]
      generalize h.isSubGroup n.parts σ' = r
      obtain ⟨r, σ2⟩ := r
      cases r with
      | throw e => rfl
      | ub => rfl
      | ok b =>
        cases b with
        | true => rfl
        | false =>
          simp only [Bool.false_eq_true, if_false]
          rw [FsM.bind_run]
          generalize h.openDataset n.parts σ2 = r
          obtain ⟨r, σ3⟩ := r
          cases r <;> rfl

/-- The text of components, each after a slash -/
def slashed : List (List Char) → List Char
  | [] => []
  | p :: ps => '/' :: p ++ slashed ps

theorem slashed_split : ∀ s : List Char, slashed (pySplit s) = '/' :: s
  | [] => rfl
  | c :: s => by
    have ih := slashed_split s
    rw [pySplit]
    split
    · rename_i e
      rw [slashed, ih, e]; rfl
    · cases e : pySplit s with
      | nil => exact absurd e (pySplit_ne s)
      | cons p ps =>
        rw [e] at ih
        simp only [slashed, List.cons_append, List.cons.injEq, true_and] at ih ⊢
        rw [ih]

theorem partName_bare (p : List Char) : (partName p).bare = p := by
  unfold partName PyName.bare
  split
  · rename_i e; rw [e]; rfl
  · simp [joinParts]

/-- What is found at a path: nothing, a group or an array -/
def Found (C : Container) (L : Libs) (Ty : ElemTypes) (T : Tree Ty) (os : List (Path × DatasetObj)) (σ : Fs) (root : PyGroup × String)
    (p : Path) (name : List Char) (threads : Nat) (r : Res PyObj × Fs) : Prop :=
  match T p with
  | none => r = (.throw .keyError, σ)
  | some (.group _) => ∃ o, r = (.ok o, σ) ∧
      o.asGroup = some (⟨⟨C.root ++ p, root.1.handle.mode⟩, root.1.zarrFormat⟩, root.2) ∧ o.root = root ∧ o.name = name
  | some (.array x) => ∃ par d, r = (.ok (.dataset par d name threads), σ) ∧ par.root = root ∧
      d.handle.path = C.root ++ p ∧ d.handle.mode = root.1.handle.mode ∧ d.info.dtype = x.dtype ∧ d.info.shape = x.shape ∧ d.info.chunkShape = x.chunks ∧
      History C L Ty T ((p, d) :: os) σ

theorem navigateParts_found (hL : L.Lawful) (h : History C L Ty T os σ) {m : FileMode} {f : Int} {s : String} :
    ∀ {ps : List (List Char)} {o : PyObj} {p : Path}, (∀ l c, ps = l ++ [c] → c ≠ []) → T.IsGroup p →
      o.asGroup = some (⟨⟨C.root ++ p, m⟩, f⟩, s) → o.root = (⟨⟨C.root, m⟩, f⟩, s) → T.Clear (p ++ namesOf ps) →
      Found C L Ty T os σ (⟨⟨C.root, m⟩, f⟩, s) (p ++ namesOf ps) (o.name ++ slashed ps) 1 (navigateParts o ps σ)
  | [], o, p, _, hg, ha, hr, _ => by
    obtain ⟨A, hA⟩ := hg
    unfold Found
    simp only [namesOf, List.filter_nil, List.map_nil, List.append_nil, hA, slashed]
    exact ⟨o, rfl, ha, hr, rfl⟩
  | q :: ps, o, p, hl, hg, ha, hr, hc => by
    have hi := Container.inv_of_history hL h
    rw [namesOf_cons, ← List.append_assoc] at hc ⊢
    have hpre : p ++ (partName q).parts <+: p ++ (partName q).parts ++ namesOf ps := List.prefix_append _ _
    have hc1 : T.Clear (p ++ (partName q).parts) := by
      intro r hr hne
      refine hc r (hr.trans hpre) fun e => hne ?_
      rw [e] at hr ⊢
      exact (hr.eq_of_length_le (hpre.length_le))
    have hget := c66_getitem hL h hg (partName q) hc1 m
    have hname : o.name ++ slashed (q :: ps) = (o.name ++ '/' :: q) ++ slashed ps := by
      simp [slashed]
    have htext : (partName q).text = q := by
      show (partName q).bare = q
      exact partName_bare q
    rw [hname]
    unfold navigateParts
    rw [FsM.bind_run]
    unfold PyObj.getItem
    rw [ha]
    simp only
    rw [FsM.bind_run, getItem_format _ C.format]
    rw [show (⟨⟨C.root ++ p, m⟩, C.format⟩ : PyGroup) = C.group p m from rfl]
    cases e : T (p ++ (partName q).parts) with
    | none =>
      rw [e] at hget
      rw [hget]
      have : T (p ++ (partName q).parts ++ namesOf ps) = none := by
        apply Classical.byContradiction
        intro hne
        exact hi.some_above hne hpre e
      unfold Found
      rw [this]
    | some y =>
      cases y with
      | group A =>
        rw [e] at hget
        simp only at hget
        rw [hget]
        simp only [htext]
        have := navigateParts_found hL h (m := m) (f := f) (s := s) (ps := ps)
          (o := .group o ⟨⟨C.root ++ (p ++ (partName q).parts), m⟩, f⟩ (o.name ++ '/' :: q) s)
          (p := p ++ (partName q).parts)
          (fun l c e => hl (q :: l) c (by rw [e]; rfl)) ⟨A, e⟩ rfl hr hc
        exact this
      | array x =>
        rw [e] at hget
        obtain ⟨d, hget, hm, h1, h2, h3, h4⟩ := hget
        have hdp := (getItem_result hget).1
        rw [hget]
        have hnil : namesOf ps = [] := by
          apply Classical.byContradiction
          intro hne
          refine hc _ hpre ?_ x e
          intro e'
          exact hne (List.self_eq_append_right.1 e')
        have hps : ps = [] := by
          rcases List.eq_nil_or_concat ps with e' | ⟨l, c, e'⟩
          · exact e'
          · exfalso
            rw [List.concat_eq_append] at e'
            have hcn := hl (q :: l) c (by rw [e']; rfl)
            rw [e', namesOf_append] at hnil
            have := (List.append_eq_nil_iff.1 hnil).2
            simp [namesOf, hcn] at this
        subst hps
        unfold Found
        simp only [hnil, List.append_nil, e, slashed, partName_bare]
        refine ⟨o, d, rfl, hr, ?_, hm, h1, h2, h3, h4⟩
        rw [hdp]
        exact List.append_assoc ..

theorem navigate_found (hL : L.Lawful) (h : History C L Ty T os σ) {m : FileMode} {f : Int} {s : String} {name : List Char}
    {p : Path} (hp : (comps name).map String.ofList = p) (hc : T.Clear p) :
    Found C L Ty T os σ (⟨⟨C.root, m⟩, f⟩, s) p (if pyStrip name = [] then [] else '/' :: pyStrip name) 1
      (navigate (.file ⟨⟨C.root, m⟩, f⟩ s) name σ) := by
  have hi := Container.inv_of_history hL h
  obtain ⟨A, hA, _⟩ := hi.top
  rw [← comps_strip] at hp
  unfold navigate
  by_cases e : pyStrip name = []
  · rw [if_pos e, if_pos e]
    rw [e] at hp
    have hp : p = [] := hp.symm
    subst hp
    unfold Found
    simp only [hA]
    exact ⟨_, rfl, by simp [PyObj.asGroup], rfl, rfl⟩
  · rw [if_neg e, if_neg e]
    obtain ⟨l, c, hs, hcn⟩ := pySplit_last e (strip_last name)
    have := navigateParts_found hL h (m := m) (f := f) (s := s) (ps := pySplit (pyStrip name)) (o := .file ⟨⟨C.root, m⟩, f⟩ s) (p := [])
      (fun l' c' e' => by
        rw [hs] at e'
        have := (List.append_inj' e' rfl).2
        cases this
        exact hcn) ⟨A, hA⟩ (by simp [PyObj.asGroup]) rfl (by rw [List.nil_append, namesOf_split, hp]; exact hc)
    rw [slashed_split, namesOf_split, hp] at this
    exact this

theorem dropWhile_none {s : List Char} (h : s.head? ≠ some '/') : s.dropWhile (· == '/') = s := by
  cases s with
  | nil => rfl
  | cons c s =>
    have : (c == '/') = false := by
      simp only [beq_eq_false_iff_ne]
      exact fun e => h (by rw [e]; rfl)
    rw [List.dropWhile_cons, this]
    rfl

theorem strip_name {n : List Char} (h1 : n.head? = some '/') (h2 : n.getLast? ≠ some '/') (h3 : ¬ ['/', '/'] <:+: n) :
    pyStrip n ≠ [] ∧ '/' :: pyStrip n = n := by
  cases n with
  | nil => cases h1
  | cons c t =>
    cases h1
    have ht : t ≠ [] := fun e => h2 (by rw [e]; rfl)
    have hh : t.head? ≠ some '/' := by
      intro e
      cases t with
      | nil => cases e
      | cons d t =>
        cases e
        exact h3 ⟨[], t, rfl⟩
    have : pyStrip ('/' :: t) = t := by
      unfold pyStrip
      rw [List.dropWhile_cons, if_pos (by decide), dropWhile_none hh, dropWhile_none, List.reverse_reverse]
      rw [List.head?_reverse]
      rwa [List.getLast?_cons_of_ne_nil ht] at h2
    rw [this]
    exact ⟨ht, rfl⟩

/-- **C69.**  A file is changed by any calls, a group or dataset is obtained from it by any calls, pickled, and unpickled at
    any time later, when the container is in the state `T`.  If its path leads to a group now, the result is that group; if
    it leads to an array, the result is an object for the array, with the number of threads of the pickled one; if nothing
    is there it is a `KeyError`.  Nothing is changed.  Path, mode, file, separator and name are those of the pickled
    object. -/
theorem c69_member (hL : L.Lawful) (hC : C.Ok) (h : History C L Ty T os σ) {m : FileMode} {s : String} {o : PyObj} {p : Path}
    (ho : Obtained (.file (C.group [] m) s) o) (hp : o.path = C.root ++ p) (hc : T.Clear p) :
    match T p with
    | none => unpickle o.pickle σ = (.throw .keyError, σ)
    | some (.group _) => ∃ o' g, unpickle o.pickle σ = (.ok o', σ) ∧ o.Like o' ∧ o'.asGroup = some (g, s) ∧
        (C.isZarr = true → g.zarrFormat = C.format)
    | some (.array x) => ∃ par d n, unpickle o.pickle σ = (.ok (.dataset par d n o.threads), σ) ∧
        o.Like (.dataset par d n o.threads) ∧ d.info.dtype = x.dtype ∧ d.info.shape = x.shape ∧ d.info.chunkShape = x.chunks ∧
        History C L Ty T ((p, d) :: os) σ := by
  have hi := Container.inv_of_history hL h
  obtain ⟨p', ha⟩ := ho.at
  have hroot : (C.group [] m).handle.path = C.root := List.append_nil _
  have : p' = p := by
    have := ha.path
    rw [hp, show ((C.group [] m, s) : PyGroup × String).1 = C.group [] m from rfl, hroot] at this
    exact (List.append_cancel_left this).symm
  subst this
  -- the name
  have hname : ¬ ['/', '/'] <:+: o.name → (if pyStrip o.name = [] then [] else '/' :: pyStrip o.name) = o.name := by
    intro hn
    rcases ha.name with ⟨_, e⟩ | ⟨e1, e2⟩
    · rw [e]; rfl
    · obtain ⟨h1, h2⟩ := strip_name e1 e2 hn
      rw [if_neg h1, h2]
  have hformat : C.isZarr = true → unpickledFormat C = C.format := fun e => by unfold unpickledFormat; rw [if_pos e]
  have hfile := unpickleFile_ok hL hC h m s
  have hnav := navigate_found hL h (m := m) (f := unpickledFormat C) (s := s) ha.comps hc
  have hlike : ∀ {o' : PyObj}, o'.path = C.root ++ p' → o'.mode = m → o'.root = (⟨⟨C.root, m⟩, unpickledFormat C⟩, s) →
      o'.name = (if pyStrip o.name = [] then [] else '/' :: pyStrip o.name) → o.Like o' := by
    intro o' h1 h2 h3 h4
    refine ⟨h1.trans hp.symm, h2.trans ha.mode.symm, ?_, ?_, fun hn => h4.trans (hname hn)⟩
    · rw [h3, ha.root]
      show (⟨C.root, m⟩ : GroupHandle) = (C.group [] m).handle
      simp [Container.group]
    · rw [h3, ha.root]
  have hlg : ∀ {o' : PyObj}, o'.asGroup = some (⟨⟨C.root ++ p', m⟩, unpickledFormat C⟩, s) → o'.path = C.root ++ p' ∧ o'.mode = m := by
    intro o' e
    cases o' <;> cases e <;> exact ⟨rfl, rfl⟩
  -- what the navigation gives, with the number of threads set
  have key : ∀ {r : Res PyObj × Fs} (t : Nat), Found C L Ty T os σ (⟨⟨C.root, m⟩, unpickledFormat C⟩, s) p'
      (if pyStrip o.name = [] then [] else '/' :: pyStrip o.name) t r →
      match T p' with
      | none => r = (.throw .keyError, σ)
      | some (.group _) => ∃ o' g, r = (.ok o', σ) ∧ o.Like o' ∧ o'.asGroup = some (g, s) ∧
          (C.isZarr = true → g.zarrFormat = C.format)
      | some (.array x) => ∃ par d n, r = (.ok (.dataset par d n t), σ) ∧
          o.Like (.dataset par d n t) ∧ d.info.dtype = x.dtype ∧ d.info.shape = x.shape ∧ d.info.chunkShape = x.chunks ∧
          History C L Ty T ((p', d) :: os) σ := by
    intro r t hf
    unfold Found at hf
    cases e : T p' with
    | none => rw [e] at hf; exact hf
    | some y =>
      cases y with
      | group A =>
        rw [e] at hf
        obtain ⟨o', h1, h2, h3, h4⟩ := hf
        exact ⟨o', _, h1, hlike (hlg h2).1 (hlg h2).2 h3 h4, h2, hformat⟩
      | array x =>
        rw [e] at hf
        obtain ⟨par, d, h1, h2, h3, h4, h5⟩ := hf
        exact ⟨par, d, _, h1, hlike h3 h4 h2 rfl, h5⟩
  have hpf : pickleFile o.root = pickleFile (C.group [] m, s) := by rw [ha.root]
  cases o with
  | file g s' =>
    refine key _ ?_
    show Found C L Ty T os σ _ _ _ _ (unpickleFile (pickleFile (PyObj.root (.file g s'))) σ)
    rw [hpf, hfile]
    have hn : navigate (.file ⟨⟨C.root, m⟩, unpickledFormat C⟩ s) (PyObj.file g s').name σ = (.ok (.file ⟨⟨C.root, m⟩, unpickledFormat C⟩ s), σ) := rfl
    rw [hn] at hnav
    exact hnav
  | group par g n s' =>
    refine key _ ?_
    show Found C L Ty T os σ _ _ _ _ ((unpickleFile (pickleFile (PyObj.root (.group par g n s'))) >>= fun f => navigate f n) σ)
    rw [hpf, FsM.bind_run, hfile]
    exact hnav
  | dataset par d n t =>
    refine key _ ?_
    show Found C L Ty T os σ _ _ _ _ ((unpickleFile (pickleFile (PyObj.root (.dataset par d n t))) >>= fun f =>
      navigate f n >>= fun o => pure (o.setThreads t)) σ)
    rw [hpf, FsM.bind_run, hfile]
    simp only
    rw [FsM.bind_run]
    unfold Found at hnav ⊢
    cases e : T p' with
    | none =>
      rw [e] at hnav
      simp only [PyObj.name] at hnav
      rw [hnav]
    | some y =>
      cases y with
      | group A =>
        rw [e] at hnav
        obtain ⟨o', h1, h2, h3, h4⟩ := hnav
        simp only [PyObj.name] at h1 ⊢
        rw [h1]
        have : o'.setThreads t = o' := by cases o' <;> first | rfl | cases h2
        exact ⟨o', (by show (Res.ok (o'.setThreads t), σ) = _; rw [this]), h2, h3, h4⟩
      | array x =>
        rw [e] at hnav
        obtain ⟨par', d', h1, h2⟩ := hnav
        simp only [PyObj.name] at h1 ⊢
        rw [h1]
        exact ⟨par', d', rfl, h2⟩

/-- `r` is `r'` with an object around the value. -/
def Wraps {α : Type} (P : PyObj → α → Prop) (r : Res PyObj × Fs) (r' : Res α × Fs) : Prop :=
  match r' with
  | (.ok a, σ') => ∃ o, r = (.ok o, σ') ∧ P o a
  | (.throw e, σ') => r = (.throw e, σ')
  | (.ub, σ') => r = (.ub, σ')

theorem wraps_requireGroup {o : PyObj} {g : PyGroup} {s : String} (ho : o.asGroup = some (g, s)) (key : Path) (σ : Fs) :
    Wraps (fun o' g' => o'.asGroup = some (g', s)) (o.requireGroup key σ) (g.requireGroup key σ) := by
  unfold PyObj.requireGroup
  rw [ho]
  simp only
  rw [FsM.bind_run]
  generalize g.requireGroup key σ = r
  obtain ⟨r, σ'⟩ := r
  cases r with
  | ok g' => exact ⟨_, rfl, rfl⟩
  | throw e => exact rfl
  | ub => exact rfl

theorem wraps_requireGroups : ∀ (ns : List String) {o : PyObj} {g : PyGroup} {s : String} (_ : o.asGroup = some (g, s)) (σ : Fs),
    Wraps (fun o' g' => o'.asGroup = some (g', s)) (o.requireGroups ns σ) (g.requireGroups ns σ)
  | [], o, g, s, ho, σ => ⟨o, rfl, ho⟩
  | n :: ns, o, g, s, ho, σ => by
    have h1 := wraps_requireGroup ho [n] σ
    unfold PyObj.requireGroups PyGroup.requireGroups
    rw [FsM.bind_run, FsM.bind_run]
    generalize g.requireGroup [n] σ = r at h1
    obtain ⟨r, σ'⟩ := r
    cases r with
    | ok g' =>
      obtain ⟨o', e, h2⟩ := h1
      rw [e]
      exact wraps_requireGroups ns h2 σ'
    | throw e =>
      rw [h1]
      exact rfl
    | ub =>
      rw [h1]
      exact rfl

/-- **C69.**  The methods of the objects do what C50, C60 and C66 say of their groups: the outcome and the file system are the
    same, and the new objects are for the groups and datasets that these return. -/
theorem c69_methods {o : PyObj} {g : PyGroup} {s : String} (ho : o.asGroup = some (g, s)) (σ : Fs) :
    (∀ n, Wraps (fun o' r => match r with
        | .inl g' => o'.asGroup = some (g', s)
        | .inr d => ∃ name, o' = .dataset o d name 1) (o.getItem n σ) (g.getItem n σ)) ∧
    (∀ n, Wraps (fun o' g' => o'.asGroup = some (g', s)) (o.createGroup n σ) (g.createGroup n σ)) ∧
    (∀ key, Wraps (fun o' g' => o'.asGroup = some (g', s)) (o.requireGroup key σ) (g.requireGroup key σ)) ∧
    (∀ n a t, Wraps (fun o' d => ∃ par name, o' = .dataset par d name t) (o.createDataset n a t σ) (g.createDatasetFull n a σ)) ∧
    (∀ key a t, Wraps (fun o' d => ∃ par name, o' = .dataset par d name t) (o.requireDataset key a t σ) (g.requireDataset key a σ)) := by
  refine ⟨fun n => ?_, fun n => ?_, fun key => wraps_requireGroup ho key σ, fun n a t => ?_, fun key a t => ?_⟩
  · unfold PyObj.getItem
    rw [ho]
    simp only
    rw [FsM.bind_run]
    generalize g.getItem n σ = r
    obtain ⟨r, σ'⟩ := r
    cases r with
    | ok r =>
      cases r with
      | inl g' => exact ⟨_, rfl, rfl⟩
      | inr d => exact ⟨_, rfl, _, rfl⟩
    | throw e => exact rfl
    | ub => exact rfl
  · unfold PyObj.createGroup
    rw [ho]
    simp only
    rw [FsM.bind_run]
    generalize g.createGroup n σ = r
    obtain ⟨r, σ'⟩ := r
    cases r with
    | ok g' => exact ⟨_, rfl, rfl⟩
    | throw e => exact rfl
    | ub => exact rfl
  · have hnew : ∀ (o : PyObj) (g : PyGroup) (n : PyName) (name : List Char) (σ : Fs),
        Wraps (fun o' d => ∃ par name, o' = .dataset par d name t)
          ((g.newDatasetFull n a >>= fun d => (pure (.dataset o d name t) : FsM PyObj)) σ) (g.newDatasetFull n a σ) := by
      intro o g n name σ
      rw [FsM.bind_run]
      generalize g.newDatasetFull n a σ = r
      obtain ⟨r, σ'⟩ := r
      cases r with
      | ok d => exact ⟨_, rfl, _, _, rfl⟩
      | throw e => exact rfl
      | ub => exact rfl
    unfold PyObj.createDataset PyGroup.createDatasetFull
    rw [ho]
    simp only
    by_cases hm : (!g.handle.mode.canWrite) = true
    · rw [if_pos hm, if_pos hm]
      exact rfl
    · rw [if_neg hm, if_neg hm, FsM.bind_run, FsM.bind_run]
      generalize g.contains n σ = r
      obtain ⟨r, σ1⟩ := r
      cases r with
      | throw e => exact rfl
      | ub => exact rfl
      | ok b =>
        cases b with
        | true => exact rfl
        | false =>
          simp only [Bool.false_eq_true, if_false]
          by_cases hl : n.parts.length > 1
          · rw [if_pos hl, if_pos hl, FsM.bind_run, FsM.bind_run]
            have h1 := wraps_requireGroups n.parts.dropLast ho σ1
            generalize g.requireGroups n.parts.dropLast σ1 = r at h1
            obtain ⟨r, σ2⟩ := r
            cases r with
            | throw e => rw [h1]; exact rfl
            | ub => rw [h1]; exact rfl
            | ok g' =>
              obtain ⟨o', e, h2⟩ := h1
              rw [e]
              simp only [h2]
              by_cases hm : (!g'.handle.mode.canWrite) = true
              · rw [if_pos hm, if_pos hm]
                exact rfl
              · rw [if_neg hm, if_neg hm, FsM.bind_run, FsM.bind_run]
                generalize g'.contains _ σ2 = r
                obtain ⟨r, σ3⟩ := r
                cases r with
                | throw e => exact rfl
                | ub => exact rfl
                | ok b =>
                  cases b with
                  | true => exact rfl
                  | false => exact hnew _ _ _ _ _
          · rw [if_neg hl, if_neg hl]
            exact hnew _ _ _ _ _
  · unfold PyObj.requireDataset
    rw [ho]
    simp only
    rw [FsM.bind_run]
    generalize g.requireDataset key a σ = r
    obtain ⟨r, σ'⟩ := r
    cases r with
    | ok d => exact ⟨_, rfl, _, _, rfl⟩
    | throw e => exact rfl
    | ub => exact rfl

theorem createDataset_obj {o : PyObj} {g : PyGroup} {s : String} (ho : o.asGroup = some (g, s)) {n : PyName} {a : PyCreateArgs}
    {σ σ' : Fs} {d : DatasetObj} (h : g.createDatasetFull n a σ = (.ok d, σ')) (t : Nat) :
    ∃ o', o.createDataset n a t σ = (.ok o', σ') ∧ ∃ par name, o' = .dataset par d name t := by
  have hw := (c69_methods ho σ).2.2.2.1 n a t
  rw [h] at hw
  exact hw

/-- The file object of the examples -/
def exFile : PyObj := .file (exC.group [] .a) "."

/-- The theorems apply: the dataset `g/d` is created with four threads, then `h` is created; the object of the dataset is
    pickled and unpickled. -/
example : ∃ (T : Tree exTypes) (o : PyObj) (d : DatasetObj) (σ : Fs), Obtained exFile o ∧ o.path = exC.root ++ ["g", "d"] ∧
    o.threads = 4 ∧ T.IsGroup ["h"] ∧ History exC exLibs exTypes T [(["g", "d"], d)] σ ∧
    ∃ par d' n, unpickle o.pickle σ = (.ok (.dataset par d' n 4), σ) ∧ o.Like (.dataset par d' n 4) ∧
      History exC exLibs exTypes T [(["g", "d"], d'), (["g", "d"], d)] σ := by
  have hL := exLibs_lawful (2 ^ 32 - 1)
  have hclear : ∀ (T : Tree exTypes) (p : Path), T.IsGroup [] → (∀ q ≠ [], T q = none) → T.Clear p := by
    rintro T p ⟨A, hA⟩ hT q _ _ a e
    by_cases hq : q = []
    · rw [hq, hA] at e; cases e
    · rw [hT q hq] at e; cases e
  obtain ⟨d, σ1, e1, m1, _, _, _, h1⟩ := (c66_create_array hL exCfs_history (g := []) (key := ["g", "d"]) ⟨_, rfl⟩
    (by decide) (by unfold PlainName; decide) (hclear _ _ ⟨_, rfl⟩ fun q hq => if_neg hq) exItem_asked .a).2.2 (by decide) rfl
  obtain ⟨σ2, e2, h2⟩ := (c66_create_group hL h1 (g := []) (ks := []) (n := "h") ⟨_, rfl⟩
    (by unfold PlainName; decide) .rp).2.2 (by decide) rfl
  obtain ⟨o, ho, par, name, rfl⟩ := createDataset_obj (o := exFile) (s := ".") rfl e1 4
  have hob : Obtained exFile (.dataset par d name 4) := .createDataset (n := ⟨false, ["g", "d"]⟩) .self
    ⟨by decide, by decide⟩ rfl ho
  have hpath : (PyObj.dataset par d name 4).path = exC.root ++ ["g", "d"] := by
    exact (((Container.inv_of_history hL h1).array ["g", "d"] exItem rfl).refers hL (List.mem_singleton.2 rfl)).2
  refine ⟨_, _, d, σ2, hob, hpath, rfl, ⟨_, rfl⟩, h2, ?_⟩
  obtain ⟨par', d', n, r1, r2, _, _, _, r3⟩ := c69_member hL (by intro; left; rfl) h2 hob hpath
    ((Container.inv_of_history hL h2).clear_of_some (by intro e; cases e))
  exact ⟨par', d', n, r1, r2, r3⟩

theorem exFs_step {x : FsM PyObj} {σ : Fs} {P : PyObj → Bool} (h : (match (x σ).1 with
    | .ok o => P o
    | _ => false) = true) : ∃ o, x σ = (.ok o, (x σ).2) ∧ P o = true := by
  generalize hr : x σ = r at h
  obtain ⟨r, σ'⟩ := r
  cases r with
  | ok o => exact ⟨o, rfl, h⟩
  | throw e => cases h
  | ub => cases h

/-- **C69, counterexample: groups in a directory without metadata.**  `f.create_group("a/b")` succeeds when there is no group
    `a` (in zarr, `a` has no metadata then); the object it returns can be pickled, but not unpickled. -/
theorem c69_no_parent_counterexample : ∃ o σ', exFile.createGroup ⟨false, ["a", "b"]⟩ exCfs = (.ok o, σ') ∧
    ((exC.group [] .a).contains ⟨false, ["a", "b"]⟩ σ').1 = .ok true ∧ ∃ e, (unpickle o.pickle σ').1 = .throw e := by
  obtain ⟨o, h, hP⟩ := exFs_step (x := exFile.createGroup ⟨false, ["a", "b"]⟩) (σ := exCfs) (P := fun o =>
    match (unpickle o.pickle (exFile.createGroup ⟨false, ["a", "b"]⟩ exCfs).2).1 with
    | .throw _ => true
    | _ => false) (by decide +kernel)
  refine ⟨o, _, h, by decide +kernel, ?_⟩
  generalize (unpickle o.pickle (exFile.createGroup ⟨false, ["a", "b"]⟩ exCfs).2).1 = r at hP
  cases r with
  | throw e => exact ⟨e, rfl⟩
  | ok o => cases hP
  | ub => cases hP

/-- **C69, counterexample: absolute names.**  The group that `f.create_group("/b")` creates is in the root directory of the
    file system; its object is pickled with the name `//b`, and unpickling looks for `b` in the file. -/
theorem c69_absolute_counterexample : ∃ o σ', exFile.createGroup ⟨true, ["b"]⟩ exCfs = (.ok o, σ') ∧ o.path = ["b"] ∧
    (unpickle o.pickle σ').1 = .throw .keyError := by
  obtain ⟨o, h, hP⟩ := exFs_step (x := exFile.createGroup ⟨true, ["b"]⟩) (σ := exCfs) (P := fun o =>
    decide (o.path = ["b"]) && match (unpickle o.pickle (exFile.createGroup ⟨true, ["b"]⟩ exCfs).2).1 with
    | .throw .keyError => true
    | _ => false) (by decide +kernel)
  rw [Bool.and_eq_true, decide_eq_true_iff] at hP
  refine ⟨o, _, h, hP.1, ?_⟩
  have hP := hP.2
  split at hP
  · assumption
  · cases hP

/-- The path that leads to the container of the counterexamples is that of an existing, valid container. -/
example : History exC exLibs exTypes (fun p => if p = [] then some (.group exC.rootAttrs) else none) [] exCfs ∧
    Obtained exFile exFile := ⟨exCfs_history, .self⟩

/-- A file object in mode `w` is unpickled; the container is still there. -/
example : ∃ g, unpickle (PyObj.file (exC.group [] .w) "/").pickle exCfs = (.ok (.file g "/"), exCfs) ∧ g.handle = ⟨["c.zarr"], .w⟩ ∧
    (exC.isZarr = true → g.zarrFormat = 2) :=
  c69_file (exLibs_lawful _) (by intro; left; rfl) exCfs_history .w "/"

end Z5.Props
