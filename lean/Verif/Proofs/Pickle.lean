import Verif.Spec.Pickle
import Verif.Proofs.Confined
import Verif.Props.Container

/-!
# Lemmas for C69
-/

namespace Z5

open Spec

/-- The components of a text that are not empty -/
def comps (s : List Char) : List (List Char) := (pySplit s).filter (fun p => !decide (p = []))

theorem pySplit_ne (s : List Char) : pySplit s ≠ [] := by
  cases s with
  | nil => exact fun e => by cases e
  | cons c s =>
    unfold pySplit
    split
    · exact fun e => by cases e
    · split <;> exact fun e => by cases e

theorem pySplit_append (s t : List Char) : pySplit (s ++ '/' :: t) = pySplit s ++ pySplit t := by
  induction s with
  | nil =>
    show pySplit ('/' :: t) = [[]] ++ pySplit t
    rw [pySplit, if_pos rfl]; rfl
  | cons c s ih =>
    rw [List.cons_append, pySplit, pySplit, ih]
    by_cases hc : c = '/'
    · rw [if_pos hc, if_pos hc]; rfl
    · rw [if_neg hc, if_neg hc]
      cases e : pySplit s with
      | nil => exact absurd e (pySplit_ne s)
      | cons p ps => rfl

theorem pySplit_plain : ∀ {s : List Char}, '/' ∉ s → pySplit s = [s]
  | [], _ => rfl
  | c :: s, h => by
    rw [List.mem_cons, not_or] at h
    rw [pySplit, if_neg (fun e => h.1 e.symm), pySplit_plain h.2]

theorem comps_append (s t : List Char) : comps (s ++ '/' :: t) = comps s ++ comps t := by
  unfold comps
  rw [pySplit_append, List.filter_append]

theorem comps_nil : comps [] = [] := rfl

theorem comps_cons (t : List Char) : comps ('/' :: t) = comps t := by
  rw [show '/' :: t = [] ++ '/' :: t from rfl, comps_append, comps_nil, List.nil_append]

theorem comps_slashes : ∀ {s : List Char}, (∀ c ∈ s, c = '/') → comps s = []
  | [], _ => rfl
  | c :: s, h => by
    rw [h c List.mem_cons_self, comps_cons]
    exact comps_slashes fun c hc => h c (List.mem_cons_of_mem _ hc)

theorem comps_append_slashes (s t : List Char) (h : ∀ c ∈ t, c = '/') : comps (s ++ t) = comps s := by
  cases t with
  | nil => rw [List.append_nil]
  | cons c t =>
    rw [h c List.mem_cons_self, comps_append, comps_slashes fun c hc => h c (List.mem_cons_of_mem _ hc), List.append_nil]

theorem comps_slashes_append : ∀ (s t : List Char), (∀ c ∈ s, c = '/') → comps (s ++ t) = comps t
  | [], _, _ => rfl
  | c :: s, t, h => by
    rw [h c List.mem_cons_self, List.cons_append, comps_cons]
    exact comps_slashes_append s t fun c hc => h c (List.mem_cons_of_mem _ hc)

theorem takeWhile_slashes (s : List Char) : ∀ c ∈ s.takeWhile (· == '/'), c = '/' := by
  induction s with
  | nil => exact fun c hc => by cases hc
  | cons d s ih =>
    intro c hc
    rw [List.takeWhile_cons] at hc
    split at hc
    · rcases List.mem_cons.1 hc with e | e
      · rw [e]; simpa using (by assumption : (d == '/') = true)
      · exact ih c e
    · cases hc

theorem strip_split (s : List Char) : ∃ a b, (∀ c ∈ a, c = '/') ∧ (∀ c ∈ b, c = '/') ∧ s = a ++ pyStrip s ++ b := by
  refine ⟨s.takeWhile (· == '/'), ((s.dropWhile (· == '/')).reverse.takeWhile (· == '/')).reverse, takeWhile_slashes s, ?_, ?_⟩
  · intro c hc
    exact takeWhile_slashes _ c (List.mem_reverse.1 hc)
  · unfold pyStrip
    rw [List.append_assoc, ← List.reverse_append, List.takeWhile_append_dropWhile, List.reverse_reverse,
      List.takeWhile_append_dropWhile]

theorem comps_strip (s : List Char) : comps (pyStrip s) = comps s := by
  obtain ⟨a, b, ha, hb, e⟩ := strip_split s
  conv => rhs; rw [e]
  rw [comps_append_slashes _ _ hb, comps_slashes_append _ _ ha]

theorem dropWhile_head (s : List Char) : (s.dropWhile (· == '/')).head? ≠ some '/' := by
  intro e
  have := List.head?_dropWhile_not (· == '/') s
  rw [e] at this
  exact absurd this (by decide)

/-- Stripped text does not end with a slash. -/
theorem strip_last (s : List Char) : (pyStrip s).getLast? ≠ some '/' := by
  unfold pyStrip
  rw [List.getLast?_reverse]
  exact dropWhile_head _

theorem pySplit_last : ∀ {s : List Char}, s ≠ [] → s.getLast? ≠ some '/' → ∃ l c, pySplit s = l ++ [c] ∧ c ≠ []
  | [], h, _ => absurd rfl h
  | [c], _, h => by
    have hc : c ≠ '/' := fun e => h (by rw [e]; rfl)
    exact ⟨[], [c], by rw [pySplit, if_neg hc]; rfl, fun e => by cases e⟩
  | c :: d :: s, _, h => by
    obtain ⟨l, x, e, hx⟩ := pySplit_last (s := d :: s) (fun e => by cases e) (by rwa [List.getLast?_cons_cons] at h)
    rw [pySplit]
    split
    · exact ⟨[] :: l, x, by rw [e]; rfl, hx⟩
    · rw [e]
      cases l with
      | nil => exact ⟨[], c :: x, rfl, fun e => by cases e⟩
      | cons p l => exact ⟨(c :: p) :: l, x, rfl, hx⟩

theorem comps_one {p : String} (h : p ≠ "" ∧ '/' ∉ p.toList) : comps p.toList = [p.toList] := by
  have : p.toList ≠ [] := fun e => h.1 (String.toList_inj.1 e)
  unfold comps
  rw [pySplit_plain h.2]
  simp [this]

theorem comps_join : ∀ {ps : Path}, (∀ p ∈ ps, p ≠ "" ∧ '/' ∉ p.toList) → comps (joinParts ps) = ps.map String.toList
  | [], _ => rfl
  | [p], h => by
    rw [joinParts, comps_one (h p List.mem_cons_self)]; rfl
  | p :: q :: ps, h => by
    have h1 := comps_one (h p List.mem_cons_self)
    have h2 := comps_join (ps := q :: ps) fun x hx => h x (List.mem_cons_of_mem _ hx)
    show comps (p.toList ++ '/' :: joinParts (q :: ps)) = _
    rw [comps_append, h1, h2]
    rfl

theorem comps_text {n : PyName} (h : n.Proper) : comps n.text = n.parts.map String.toList := by
  unfold PyName.text PyName.bare
  split
  · rw [comps_cons, comps_join h.parts]
  · exact comps_join h.parts

/-- The path that a list of components stands for -/
def namesOf (ps : List (List Char)) : Path := (ps.filter (fun p => !decide (p = []))).map String.ofList

theorem namesOf_cons (p : List Char) (ps : List (List Char)) : namesOf (p :: ps) = (partName p).parts ++ namesOf ps := by
  unfold namesOf partName
  by_cases h : p = []
  · simp [h]
  · simp [h]

theorem namesOf_append (a b : List (List Char)) : namesOf (a ++ b) = namesOf a ++ namesOf b := by
  unfold namesOf
  rw [List.filter_append, List.map_append]

theorem namesOf_split (s : List Char) : namesOf (pySplit s) = (comps s).map String.ofList := rfl

theorem makeDataset_handle {d : DatasetHandle} {m : Meta} {ds : DatasetObj} (h : makeDataset d m = .ok ds) :
    ds.handle.path = d.path ∧ ds.handle.mode = d.mode := by
  unfold makeDataset at h
  obtain ⟨_, _, h⟩ := Res.bind_eq_ok.1 h
  obtain ⟨_, _, h⟩ := Res.bind_eq_ok.1 h
  obtain ⟨_, _, h⟩ := Res.bind_eq_ok.1 h
  split at h
  · obtain ⟨_, _, h⟩ := Res.bind_eq_ok.1 h
    cases h; exact ⟨rfl, rfl⟩
  · cases h; exact ⟨rfl, rfl⟩

theorem openDataset_handle {g : GroupHandle} {key : Path} {ds : DatasetObj} {σ σ' : Fs}
    (h : g.openDataset key σ = (.ok ds, σ')) : ds.handle.path = g.path ++ key ∧ ds.handle.mode = g.mode := by
  unfold GroupHandle.openDataset at h
  obtain ⟨z, σ1, _, h⟩ := FsM.bind_ok.1 h
  have key : ∀ {cfg : ChunkConfig} {σ1 : Fs}, (g.dataset key cfg.delimiter cfg.zarrFormat cfg.encoding).openDataset σ1 = (.ok ds, σ') →
      ds.handle.path = g.path ++ key ∧ ds.handle.mode = g.mode := by
    intro cfg σ1 h
    unfold DatasetHandle.openDataset at h
    obtain ⟨b, σ2, _, h⟩ := FsM.bind_ok.1 h
    split at h
    · cases h
    · obtain ⟨m, σ3, _, h⟩ := FsM.bind_ok.1 h
      exact makeDataset_handle (FsM.lift_ok.1 h).1
  split at h
  · obtain ⟨_, _, _, h⟩ := FsM.bind_ok.1 h
    exact key h
  · obtain ⟨_, _, _, h⟩ := FsM.bind_ok.1 h
    exact key h

theorem getItem_result {g : PyGroup} {n : PyName} {r : PyGroup ⊕ DatasetObj} {σ σ' : Fs} (h : g.getItem n σ = (.ok r, σ')) :
    match r with
    | .inl g' => g' = ⟨g.handle.group n.parts, g.zarrFormat⟩
    | .inr d => d.handle.path = g.handle.path ++ n.parts ∧ d.handle.mode = g.handle.mode := by
  unfold PyGroup.getItem at h
  obtain ⟨b, σ1, _, h⟩ := FsM.bind_ok.1 h
  split at h
  · cases h
  · obtain ⟨c, σ2, _, h⟩ := FsM.bind_ok.1 h
    split at h
    · cases h; rfl
    · obtain ⟨d, σ3, h3, h⟩ := FsM.bind_ok.1 h
      cases h
      exact openDataset_handle h3

theorem createGroup_result {g g' : PyGroup} {n : PyName} {σ σ' : Fs} (h : g.createGroup n σ = (.ok g', σ')) :
    g' = ⟨⟨n.under g.handle.path, g.handle.mode⟩, g.zarrFormat⟩ := by
  unfold PyGroup.createGroup at h
  split at h
  · cases h
  · obtain ⟨b, σ1, _, h⟩ := FsM.bind_ok.1 h
    split at h
    · cases h
    · obtain ⟨_, σ2, _, h⟩ := FsM.bind_ok.1 h
      cases h; rfl

theorem newDatasetFull_handle {g : PyGroup} {n : PyName} {a : PyCreateArgs} {ds : DatasetObj} {σ σ' : Fs}
    (h : g.newDatasetFull n a σ = (.ok ds, σ')) :
    ds.handle.path = n.under g.handle.path ∧ ds.handle.mode = g.handle.mode := by
  unfold PyGroup.newDatasetFull at h
  obtain ⟨z, σ1, _, h⟩ := FsM.bind_ok.1 h
  obtain ⟨⟨args, O⟩, σ2, _, h⟩ := FsM.bind_ok.1 h
  unfold GroupHandle.createDatasetJsonAt at h
  obtain ⟨_, _, _, h⟩ := FsM.bind_ok.1 h
  obtain ⟨_, _, _, h⟩ := FsM.bind_ok.1 h
  unfold GroupHandle.createDatasetAt at h
  obtain ⟨_, _, _, h⟩ := FsM.bind_ok.1 h
  obtain ⟨_, _, _, h⟩ := FsM.bind_ok.1 h
  unfold DatasetHandle.createDataset at h
  obtain ⟨_, _, _, h⟩ := FsM.bind_ok.1 h
  obtain ⟨_, _, _, h⟩ := FsM.bind_ok.1 h
  exact makeDataset_handle (FsM.lift_ok.1 h).1

theorem requireDataset_handle {g : PyGroup} {key : Path} {a : PyCreateArgs} {ds : DatasetObj} {σ σ' : Fs}
    (h : g.requireDataset key a σ = (.ok ds, σ')) :
    ds.handle.path = g.handle.path ++ key ∧ ds.handle.mode = g.handle.mode := by
  unfold PyGroup.requireDataset at h
  obtain ⟨b, σ1, _, h⟩ := FsM.bind_ok.1 h
  split at h
  · obtain ⟨_, _, _, h⟩ := FsM.bind_ok.1 h
    split at h
    · cases h
    · obtain ⟨d, _, h1, h⟩ := FsM.bind_ok.1 h
      repeat' split at h
      all_goals first | (cases h; done) | (cases h; exact openDataset_handle h1)
  · split at h
    · cases h
    · exact newDatasetFull_handle h

/-- Where an object is: at the path `p` of the file `f` -/
structure PyObj.At (f : PyGroup × String) (o : PyObj) (p : Path) : Prop where
  path : o.path = f.1.handle.path ++ p
  mode : o.mode = f.1.handle.mode
  root : o.root = f
  asGroup : ∀ g s, o.asGroup = some (g, s) → g = ⟨⟨f.1.handle.path ++ p, f.1.handle.mode⟩, f.1.zarrFormat⟩ ∧ s = f.2
  comps : (comps o.name).map String.ofList = p
  name : (p = [] ∧ o.name = []) ∨ (o.name.head? = some '/' ∧ o.name.getLast? ≠ some '/')

theorem getLast?_slash {a t : List Char} (h : t ≠ []) : (a ++ '/' :: t).getLast? = t.getLast? := by
  rw [List.getLast?_append, List.getLast?_cons_of_ne_nil h, List.getLast?_eq_some_getLast h]
  rfl

theorem joinParts_last : ∀ {ps : Path}, ps ≠ [] → (∀ p ∈ ps, p ≠ "" ∧ '/' ∉ p.toList) →
    joinParts ps ≠ [] ∧ (joinParts ps).getLast? ≠ some '/'
  | [], h, _ => absurd rfl h
  | [p], _, h => by
    obtain ⟨h1, h2⟩ := h p List.mem_cons_self
    exact ⟨fun e => h1 (String.toList_inj.1 e), fun e => h2 (List.mem_of_getLast? e)⟩
  | p :: q :: ps, _, h => by
    obtain ⟨h1, h2⟩ := joinParts_last (ps := q :: ps) (fun e => by cases e) fun x hx => h x (List.mem_cons_of_mem _ hx)
    refine ⟨by simp [joinParts], ?_⟩
    show (p.toList ++ '/' :: joinParts (q :: ps)).getLast? ≠ some '/'
    rw [getLast?_slash h1]
    exact h2

theorem text_last {n : PyName} (h : n.Proper) : n.text ≠ [] ∧ n.text.getLast? ≠ some '/' := by
  obtain ⟨h1, h2⟩ := joinParts_last h.nonempty h.parts
  unfold PyName.text PyName.bare
  split
  · rw [List.getLast?_cons_of_ne_nil h1]
    exact ⟨by simp, h2⟩
  · exact ⟨h1, h2⟩

/-- The name of a member -/
theorem PyObj.At.named {f : PyGroup × String} {o : PyObj} {p : Path} (h : o.At f p) {t : List Char} {ps : Path}
    (ht : t ≠ [] ∧ t.getLast? ≠ some '/') (hc : Z5.comps t = ps.map String.toList) :
    (Z5.comps (o.name ++ '/' :: t)).map String.ofList = p ++ ps ∧
      (o.name ++ '/' :: t).head? = some '/' ∧ (o.name ++ '/' :: t).getLast? ≠ some '/' := by
  refine ⟨?_, ?_, ?_⟩
  · rw [comps_append, List.map_append, h.comps, hc, List.map_map]
    congr 1
    simp [Function.comp_def]
  · rcases h.name with ⟨_, e⟩ | ⟨e, _⟩
    · rw [e]; rfl
    · cases h' : o.name with
      | nil => rfl
      | cons c s => rw [h'] at e; simpa using e
  · rw [getLast?_slash ht.1]
    exact ht.2

theorem PyObj.At.group {f : PyGroup × String} {o : PyObj} {p : Path} (h : o.At f p) {g g' : PyGroup} {s : String}
    (hg : o.asGroup = some (g, s)) {ps : Path} (hg' : g' = ⟨⟨g.handle.path ++ ps, g.handle.mode⟩, g.zarrFormat⟩) {t : List Char}
    (ht : t ≠ [] ∧ t.getLast? ≠ some '/') (hc : Z5.comps t = ps.map String.toList) :
    (PyObj.group o g' (o.name ++ '/' :: t) s).At f (p ++ ps) := by
  obtain ⟨rfl, rfl⟩ := h.asGroup _ _ hg
  obtain ⟨n1, n2, n3⟩ := h.named ht hc
  subst hg'
  refine ⟨by simp [PyObj.path], rfl, h.root, ?_, n1, .inr ⟨n2, n3⟩⟩
  intro g s e
  cases e
  exact ⟨by simp, rfl⟩

theorem PyObj.At.dataset {f : PyGroup × String} {o : PyObj} {p : Path} (h : o.At f p) {g : PyGroup} {s : String}
    (hg : o.asGroup = some (g, s)) {ps : Path} {d : DatasetObj} (hd : d.handle.path = g.handle.path ++ ps ∧ d.handle.mode = g.handle.mode)
    {t : List Char} (ht : t ≠ [] ∧ t.getLast? ≠ some '/') (hc : Z5.comps t = ps.map String.toList) (k : Nat) :
    (PyObj.dataset o d (o.name ++ '/' :: t) k).At f (p ++ ps) := by
  obtain ⟨rfl, rfl⟩ := h.asGroup _ _ hg
  obtain ⟨n1, n2, n3⟩ := h.named ht hc
  refine ⟨?_, hd.2, h.root, ?_, n1, .inr ⟨n2, n3⟩⟩
  · show d.handle.path = _
    rw [hd.1, List.append_assoc]
  · intro g s e
    cases e

theorem PyName.proper_of_key {key : Path} (h : PyName.Proper { parts := key }) :
    (joinParts key ≠ [] ∧ (joinParts key).getLast? ≠ some '/') ∧ comps (joinParts key) = key.map String.toList :=
  ⟨joinParts_last h.nonempty h.parts, comps_join h.parts⟩

theorem requireGroup_at {f : PyGroup × String} {o o' : PyObj} {p key : Path} {σ σ' : Fs} (h : o.At f p)
    (hk : PyName.Proper { parts := key }) (hr : o.requireGroup key σ = (.ok o', σ')) : o'.At f (p ++ key) := by
  unfold PyObj.requireGroup at hr
  cases e : o.asGroup with
  | none => rw [e] at hr; cases hr
  | some gs =>
    obtain ⟨g, s⟩ := gs
    rw [e] at hr
    obtain ⟨g', _, h1, hr⟩ := FsM.bind_ok.1 hr
    cases hr
    exact h.group e (requireGroup_ok h1) (PyName.proper_of_key hk).1 (PyName.proper_of_key hk).2

theorem requireGroups_at {f : PyGroup × String} : ∀ {ns : List String} {o o' : PyObj} {p : Path} {σ σ' : Fs}, o.At f p →
    (∀ n ∈ ns, n ≠ "" ∧ '/' ∉ n.toList) → o.requireGroups ns σ = (.ok o', σ') → o'.At f (p ++ ns)
  | [], o, o', p, σ, σ', h, _, hr => by
    cases hr
    rwa [List.append_nil]
  | n :: ns, o, o', p, σ, σ', h, hn, hr => by
    unfold PyObj.requireGroups at hr
    obtain ⟨o1, σ1, h1, h2⟩ := FsM.bind_ok.1 hr
    have := requireGroups_at (requireGroup_at h (key := [n]) ⟨(fun e => by cases e), fun x hx => hn x (by simp at hx; simp [hx])⟩ h1)
      (fun x hx => hn x (List.mem_cons_of_mem _ hx)) h2
    rwa [List.append_assoc] at this

/-- Every object that comes from a file is at some path of it. -/
theorem Obtained.at {g₀ : PyGroup} {s₀ : String} {o : PyObj} (h : Obtained (.file g₀ s₀) o) :
    ∃ p, o.At (g₀, s₀) p := by
  induction h with
  | self =>
    refine ⟨[], by simp [PyObj.path], rfl, rfl, ?_, rfl, .inl ⟨rfl, rfl⟩⟩
    intro g s e
    cases e
    exact ⟨by simp, rfl⟩
  | @getItem o o' n σ σ' _ hn hr ih =>
    obtain ⟨p, ih⟩ := ih
    unfold PyObj.getItem at hr
    cases e : o.asGroup with
    | none => rw [e] at hr; cases hr
    | some gs =>
      obtain ⟨g, s⟩ := gs
      rw [e] at hr
      obtain ⟨r, _, h1, hr⟩ := FsM.bind_ok.1 hr
      have h2 := getItem_result h1
      cases r with
      | inl g' =>
        cases hr
        exact ⟨_, ih.group e h2 (text_last hn) (comps_text hn)⟩
      | inr d =>
        cases hr
        exact ⟨_, ih.dataset e h2 (joinParts_last hn.nonempty hn.parts) (comps_join hn.parts) 1⟩
  | @createGroup o o' n σ σ' _ hn ha hr ih =>
    obtain ⟨p, ih⟩ := ih
    unfold PyObj.createGroup at hr
    cases e : o.asGroup with
    | none => rw [e] at hr; cases hr
    | some gs =>
      obtain ⟨g, s⟩ := gs
      rw [e] at hr
      obtain ⟨g', _, h1, hr⟩ := FsM.bind_ok.1 hr
      have h2 := createGroup_result h1
      cases hr
      refine ⟨_, ih.group e (ps := n.parts) ?_ (text_last hn) (comps_text hn)⟩
      rw [h2]
      unfold PyName.under
      rw [ha, if_neg (by decide)]
  | requireGroup _ hk hr ih =>
    obtain ⟨p, ih⟩ := ih
    exact ⟨_, requireGroup_at ih hk hr⟩
  | @createDataset o o' n a t σ σ' _ hn ha hr ih =>
    obtain ⟨p, ih⟩ := ih
    unfold PyObj.createDataset at hr
    cases e : o.asGroup with
    | none => rw [e] at hr; cases hr
    | some gs =>
      obtain ⟨g, s⟩ := gs
      rw [e] at hr
      simp only at hr
      split at hr
      · cases hr
      · obtain ⟨b, σ1, _, hr⟩ := FsM.bind_ok.1 hr
        split at hr
        · cases hr
        · split at hr
          · obtain ⟨o1, σ2, h1, hr⟩ := FsM.bind_ok.1 hr
            have hat := requireGroups_at ih (fun x hx => hn.parts x (List.dropLast_subset _ hx)) h1
            cases e1 : o1.asGroup with
            | none => simp only [e1] at hr; cases hr
            | some gs1 =>
              obtain ⟨g1, s1⟩ := gs1
              simp only [e1] at hr
              split at hr
              · cases hr
              · obtain ⟨b', σ3, _, hr⟩ := FsM.bind_ok.1 hr
                split at hr
                · cases hr
                · obtain ⟨d, σ4, h2, hr⟩ := FsM.bind_ok.1 hr
                  cases hr
                  have hl : n.parts.getLast?.toList = [n.parts.getLast hn.nonempty] := by
                    rw [List.getLast?_eq_some_getLast hn.nonempty]; rfl
                  have hk : PyName.Proper { parts := n.parts.getLast?.toList } := by
                    rw [hl]
                    refine ⟨(fun e => by cases e), fun x hx => ?_⟩
                    simp only [List.mem_cons, List.not_mem_nil, or_false] at hx
                    rw [hx]
                    exact hn.parts _ (List.getLast_mem _)
                  exact ⟨_, hat.dataset e1 (newDatasetFull_handle h2) (text_last hk) (comps_text hk) t⟩
          · obtain ⟨d, σ4, h2, hr⟩ := FsM.bind_ok.1 hr
            cases hr
            have h3 := newDatasetFull_handle h2
            unfold PyName.under at h3
            rw [ha, if_neg (by decide)] at h3
            exact ⟨_, ih.dataset e h3 (text_last hn) (comps_text hn) t⟩
  | @requireDataset o o' key a t σ σ' _ hk hr ih =>
    obtain ⟨p, ih⟩ := ih
    unfold PyObj.requireDataset at hr
    cases e : o.asGroup with
    | none => rw [e] at hr; cases hr
    | some gs =>
      obtain ⟨g, s⟩ := gs
      rw [e] at hr
      obtain ⟨d, _, h1, hr⟩ := FsM.bind_ok.1 hr
      cases hr
      exact ⟨_, ih.dataset e (requireDataset_handle h1) (PyName.proper_of_key hk).1 (PyName.proper_of_key hk).2 t⟩
  | @threads o t _ ih =>
    obtain ⟨p, ih⟩ := ih
    refine ⟨p, ?_⟩
    cases o with
    | dataset => exact ⟨ih.path, ih.mode, ih.root, (fun g s e => by cases e), ih.comps, ih.name⟩
    | _ => exact ih

end Z5
