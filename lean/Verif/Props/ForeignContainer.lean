import Verif.Props.Container
import Verif.Proofs.ContainerBytes

/-!
# C85: containers of other programs

A directory that some program filled with groups and arrays of zarr v2, zarr v3 or N5 (`RawFs.HoldsContainer`) is for this library the
tree of these groups and arrays.  All theorems of C66 hold for it (`History.found`); here are the ones for the calls that look at
it.  And after any history of calls the bytes are again a container of the format (`c85_bytes`), whoever made the first one.
-/

namespace Z5.Props

open Spec

variable {C : Container} {L : Libs} {Ty : ElemTypes} {T : Tree Ty} {R : RawFs}

/-- **C85, opening.**  `File(path, mode)` in the modes `r`, `r+` and `a` gives the root and changes nothing. -/
theorem c85_open (hL : L.Lawful) (hC : C.Ok) (h : R.HoldsContainer C L T) {base : String} {z : Option Bool} {f : Int} {m : FileMode}
    (hm : m = .r ∨ m = .rp ∨ m = .a) (hz : ∀ b, z = some b → b = R.view.looksLikeZarr C.root base) :
    pyFile C.root base m z f R.view = (.ok ⟨⟨C.root, m⟩, if C.isZarr then C.format else f⟩, R.view) :=
  c66_reopen hL hC (.found (Ty := Ty) h hC) hm hz

/-- **C85, looking.**  `name in group`, `group.keys()` and `group[name]` show the groups and arrays of the container. -/
theorem c85_look (hL : L.Lawful) (hC : C.Ok) (h : R.HoldsContainer C L T) {g : Path} (hg : T.IsGroup g) (m : FileMode) :
    (∀ n : PyName, T.Clear (g ++ n.parts) →
      (C.group g m).contains n R.view = (.ok (T (g ++ n.parts)).isSome, R.view) ∧
      (T (g ++ n.parts) = none → (C.group g m).getItem n R.view = (.throw .keyError, R.view)) ∧
      (T.IsGroup (g ++ n.parts) → (C.group g m).getItem n R.view = (.ok (.inl (C.group (g ++ n.parts) m)), R.view))) ∧
    ∀ entries : Path → List String, R.view.Lists entries →
      ∃ ns, (C.group g m).handle.keys entries R.view = (.ok ns, R.view) ∧ ns.Nodup ∧ ∀ n, n ∈ ns ↔ T (g ++ [n]) ≠ none := by
  have hh : History C L Ty T [] R.view := .found h hC
  refine ⟨fun n hc => ⟨c66_contains hL hh n hc m, fun e => ?_, fun ⟨A, e⟩ => ?_⟩, fun entries hl => c66_keys hL hh hg hl m⟩
  · have := c66_getitem hL hh hg n hc m
    rw [e] at this
    exact this
  · have := c66_getitem hL hh hg n hc m
    rw [e] at this
    exact this

/-- **C85, reading.**  `group[name]` opens every array, with its type and shape, in any mode; nothing changes, and every region that is
read has exactly the elements of the array. -/
theorem c85_read (hL : L.Lawful) (h : R.HoldsContainer C L T) {g : Path} (hg : T.IsGroup g) (n : PyName) {x : ArrayItem Ty}
    (hx : T (g ++ n.parts) = some (.array x)) (m : FileMode) :
    ∃ o d, (C.group g m).getItem n R.view = (.ok (.inr o), R.view) ∧ o.handle.mode = m ∧ o.info.dtype = x.dtype ∧
      o.info.shape = x.shape ∧ o.info.chunkShape = x.chunks ∧ o.typed L (Ty.cast x.dtype) = .ok d ∧ d.base.shape = x.shape ∧
      d.ReadsAs (C.root ++ (g ++ n.parts)) R.view x.content := by
  obtain ⟨a, A, h1, h2, h3, _⟩ := h.array _ _ hx
  obtain ⟨f, v, e1, e2, e3⟩ := h1.fill
  obtain ⟨B, hB⟩ := hg
  have hG := h.group _ _ hB
  rw [e3] at h2
  have hgr : R.IsGroup (C.group g m).handle.path C.layout := by
    refine ⟨hG.dir, ?_⟩
    show _ ↔ R (C.root ++ g ++ _) ≠ none ∨ R (C.root ++ g ++ _) ≠ none
    have hd := hG.document
    cases e : C.layout with
    | v2 =>
      rw [e] at hd
      obtain ⟨_, j, ⟨bom, t, _, _, hj⟩, _⟩ := hd
      refine ⟨fun _ => .inl fun e' => ?_, fun _ => rfl⟩
      unfold RawFs.content at hj
      rw [e'] at hj
      cases hj
    | v3 =>
      rw [e] at hd
      obtain ⟨j, ⟨bom, t, _, _, hj⟩, _⟩ := hd
      refine ⟨fun _ => .inr fun e' => ?_, fun _ => rfl⟩
      unfold RawFs.content at hj
      rw [e'] at hj
      cases hj
    | n5 =>
      rw [e] at hd
      refine ⟨fun e => (by cases e), fun e => ?_⟩
      rcases e with e | e
      · exact absurd hd.1 e
      · exact absurd hd.2.1 e
  obtain ⟨o, d, r1, r2, r3⟩ := c83_getitem (elem := Ty.cast x.dtype) (g := C.group g m) (n := n) hL h2 h1.supported e1
    (by rw [h1.dtype]; exact e2) (List.append_assoc ..) hgr h3
  exact ⟨o, d, r1, r2.mode, r2.dtype.trans h1.dtype, r2.shape.trans h1.shape, r2.chunks.trans h1.chunks, r2.typed,
    r2.base.1.trans h1.shape, r3⟩

/-- **C85, attributes.**  `.attrs` of a group and of an array are those in the files; of an array in N5, without the ones that describe
it. -/
theorem c85_attributes (hL : L.Lawful) (hC : C.Ok) (h : R.HoldsContainer C L T) (m : FileMode) :
    (∀ g A, T g = some (.group A) → ∃ j, (C.attrsOf g m).read R.view = (.ok j, R.view) ∧ ∀ k, j.find k = A k) ∧
    ∀ g n x, T.IsGroup g → T (g ++ PyName.parts n) = some (.array x) → ∃ o j, (C.group g m).getItem n R.view = (.ok (.inr o), R.view) ∧
      (Target.dataset o.handle).read R.view = (.ok j, R.view) ∧ ∀ k, j.find k = x.attrs k := by
  have hh : History C L Ty T [] R.view := .found h hC
  refine ⟨fun g A hg => (c66_group_attributes hL hh hg m).1, fun g n x hg hx => ?_⟩
  obtain ⟨o, d, r1, _⟩ := c85_read hL h hg n hx m
  obtain ⟨j, e1, e2⟩ := (c66_array_attributes hL (.opened hh hx hg r1) (List.mem_cons_self ..) hx).1
  exact ⟨o, j, r1, e1, e2⟩

/-- **C85, bytes.**  After any history of calls, on a new container or on one of another program, whatever texts stand for the
documents, the directory has a container of the format: the tree that the calls made of it.  (Elements that compare equal to
the fill value may have become the fill value.) -/
theorem c85_bytes {os : List (Path × DatasetObj)} {σ : Fs} (hL : L.Lawful) (hC : C.Ok) (h : History C L Ty T os σ) (hR : R.Stores σ) :
    ∃ T' : Tree Ty, T.StoredAs T' ∧ R.HoldsContainer C L T' :=
  (Container.inv_of_history hL h).bytes hL hC hR

/-- **C85, going on.**  So the life of a container can go on with what is in the files: after a process wrote them, every other
process (or program) has the same tree. -/
theorem c85_continue {os : List (Path × DatasetObj)} {σ : Fs} (hL : L.Lawful) (hC : C.Ok) (h : History C L Ty T os σ)
    (hR : R.Stores σ) : ∃ T' : Tree Ty, T.StoredAs T' ∧ History C L Ty T' [] R.view := by
  obtain ⟨T', h1, h2⟩ := c85_bytes hL hC h hR
  exact ⟨T', h1, .found h2 hC⟩

/-! ### Example -/

/-- an array in a directory further down -/
theorem holdsArray_below {E : Elem} {R R' : RawFs} {pre p : Path} {La : Layout} {a : ArrayDesc} {K : Codec} {fill : E.T}
    {A : List Nat → E.T} (h : R.HoldsArray p La a E K fill A) (hd : ∀ q, q <+: pre ++ p → R' q = some .dir)
    (he : ∀ q, p <+: q → q ≠ p → R' (pre ++ q) = R q) : R'.HoldsArray (pre ++ p) La a E K fill A := by
  have hc : ∀ k, chunkFile (pre ++ p) k = pre ++ chunkFile p k := fun k => List.append_assoc ..
  have hk : ∀ k, R' (pre ++ chunkFile p k) = R (chunkFile p k) := fun k => he _ (List.prefix_append _ _) (by
    unfold chunkFile
    intro e
    have := congrArg List.length e
    have h1 := keyNames_length k []
    rw [List.length_append] at this
    omega)
  have hn : ∀ n, R' (pre ++ p ++ [n]) = R (p ++ [n]) := fun n => by
    rw [List.append_assoc]
    exact he _ (List.prefix_append _ _) (by simp)
  refine ⟨hd, ?_, ?_, ?_, ?_, ?_⟩
  · obtain ⟨j, ⟨bom, t, h1, h2, h3⟩, h4⟩ := h.document
    refine ⟨j, ⟨bom, t, h1, h2, ?_⟩, h4⟩
    unfold RawFs.content at h3 ⊢
    rw [hn]
    exact h3
  · intro n hm hne
    rw [hn]
    exact h.others n hm hne
  · intro k hk'
    rw [hc, hk]
    exact h.files k hk'
  · intro k hk' q h1 h2 h3 b
    obtain ⟨u, rfl⟩ := h1
    rw [hc, List.append_assoc] at h2 h3
    by_cases e : u = []
    · rw [e, List.append_nil, hd _ (List.prefix_refl _)]
      exact fun e => by cases e
    · rw [List.append_assoc, he _ (List.prefix_append _ _) (by simpa using e)]
      exact h.dirs k hk' _ (List.prefix_append _ _) (List.prefix_append_right_inj _ |>.1 h2) (fun e' => h3 (by rw [e'])) b
  · have : (fun k => R'.content (chunkFile (pre ++ p) k)) = fun k => R.content (chunkFile p k) := by
      funext k
      unfold RawFs.content
      rw [hc, hk]
    rw [this]
    exact h.elements

/-- An N5 container of another program (which states another version of N5): a group `g` without a document, and in it the array `d` of
C83 -/
def exFound : RawFs := fun q =>
  if q = [] ∨ q = ["c.n5"] ∨ q = ["c.n5", "g"] then some .dir
  else if q = ["c.n5", "attributes.json"] then
    some (.file (Utf8.encode (JsonText.text JsonText.dumps exactDigits (.obj [("n5", .str "4.0.0"), ("by", .str "n5-java")]))))
  else match q with
    | "c.n5" :: "g" :: q => if q = [] then none else exForeign [("unit", .str "nm")] q
    | _ => none

def exFoundC : Container := ⟨["c.n5"], false, 2⟩

def exFoundItem : ArrayItem exTypes := ⟨.uint8, [3], [2], none, exElem (.int 0), exForeignElems,
  fun k => if k = "unit" then some (.str "nm") else none⟩

def exFoundTree : Tree exTypes := fun p =>
  if p = [] then some (.group fun k => if k = "n5" then some (.str "4.0.0") else if k = "by" then some (.str "n5-java") else none)
  else if p = ["g"] then some (.group fun _ => none)
  else if p = ["g", "d"] then some (.array exFoundItem)
  else none

theorem exFoundTree_group {p : Path} (h : exFoundTree.IsGroup p) : p = [] ∨ p = ["g"] := by
  obtain ⟨A, h⟩ := h
  unfold exFoundTree at h
  split at h
  · exact .inl ‹_›
  · split at h
    · exact .inr ‹_›
    · split at h <;> cases h

theorem exFoundTree_node {p : Path} {n : String} (h : exFoundTree (p ++ [n]) ≠ none) : (p = [] ∧ n = "g") ∨ (p = ["g"] ∧ n = "d") := by
  unfold exFoundTree at h
  split at h
  · rename_i e; simp at e
  · split at h
    · rename_i e
      have e : p ++ [n] = [] ++ ["g"] := e
      obtain ⟨h1, h2⟩ := List.append_inj' e rfl
      cases h2
      exact .inl ⟨h1, rfl⟩
    · split at h
      · rename_i e
        have e : p ++ [n] = ["g"] ++ ["d"] := e
        obtain ⟨h1, h2⟩ := List.append_inj' e rfl
        cases h2
        exact .inr ⟨h1, rfl⟩
      · exact absurd rfl h

theorem exFound_below {q : Path} (h : q ≠ []) : exFound ("c.n5" :: "g" :: q) = exForeign [("unit", .str "nm")] q := by
  unfold exFound
  rw [if_neg (by simp [h]), if_neg (by simp)]
  exact if_neg h

theorem exFound_holds : exFound.HoldsContainer exFoundC exLibs exFoundTree where
  inDirs p n h := by
    have : ∀ {q : Path}, exFound q ≠ none → q = [] ∨ q = ["c.n5"] ∨ q = ["c.n5", "g"] ∨ q = ["c.n5", "attributes.json"] ∨
        q = ["c.n5", "g", "d"] ∨ q = ["c.n5", "g", "d", "attributes.json"] ∨ q = ["c.n5", "g", "d", "0"] := by
      intro q hq
      unfold exFound at hq
      split at hq
      · rename_i e
        rcases e with e | e | e <;> simp [e]
      · split at hq
        · rename_i e; simp [e]
        · split at hq
          · split at hq
            · exact absurd rfl hq
            · unfold exForeign at hq
              split at hq
              · rename_i e
                rcases e with e | e <;> simp_all
              · split at hq
                · rename_i e; simp [e]
                · split at hq
                  · rename_i e; simp [e]
                  · exact absurd rfl hq
          · exact absurd rfl hq
    have last : ∀ {r : Path} {s : String}, p ++ [n] = r ++ [s] → p = r := fun e => (List.append_inj' e rfl).1
    rcases this h with e | e | e | e | e | e | e
    · simp at e
    · rw [last (r := []) e]; rfl
    · rw [last (r := ["c.n5"]) e]; rfl
    · rw [last (r := ["c.n5"]) e]; rfl
    · rw [last (r := ["c.n5", "g"]) e]; rfl
    · rw [last (r := ["c.n5", "g", "d"]) e]; rfl
    · rw [last (r := ["c.n5", "g", "d"]) e]; rfl
  root := ⟨_, rfl, fun _ => ⟨'4', ['.', '0', '.', '0'], by decide, rfl⟩⟩
  closed p n h := by
    rcases exFoundTree_node h with ⟨rfl, _⟩ | ⟨rfl, _⟩ <;> exact ⟨_, rfl⟩
  names p n h := by
    rcases exFoundTree_node h with ⟨_, rfl⟩ | ⟨_, rfl⟩ <;> (unfold PlainName; decide)
  group p A h := by
    rcases exFoundTree_group ⟨A, h⟩ with rfl | rfl
    · cases h
      refine ⟨rfl, .inr ⟨_, c83_text exactDigits_lawful (j := .obj [("n5", .str "4.0.0"), ("by", .str "n5-java")])
        ⟨by decide, trivial, trivial, trivial⟩ (.inr (.inr rfl)) rfl, ⟨_, rfl, by decide⟩, ?_⟩, ?_⟩
      · funext k
        show _ = assocGet _ k
        by_cases e1 : k = "n5"
        · subst e1; rfl
        · rw [if_neg e1]
          by_cases e2 : k = "by"
          · subst e2; rfl
          · rw [if_neg e2]
            simp [assocGet, Ne.symm e1, Ne.symm e2]
      · exact ⟨rfl, rfl, by decide⟩
    · cases h
      exact ⟨rfl, .inl ⟨rfl, rfl⟩, rfl, rfl, fun _ _ => rfl⟩
  array p x h := by
    have hp : p = ["g", "d"] ∧ x = exFoundItem := by
      unfold exFoundTree at h
      split at h
      · cases h
      · split at h
        · cases h
        · split at h
          · cases h; exact ⟨‹_›, rfl⟩
          · cases h
    obtain ⟨rfl, rfl⟩ := hp
    have hh : exFound.HoldsArray (["c.n5", "g"] ++ ["d"]) .n5 exForeignDesc U8 (exLibs.codec U8.size .raw) (exElem (.int 0)) exForeignElems := by
      refine holdsArray_below (exForeign_holds exForeign_plain_unit) (fun q hq => ?_) fun q hq hne => ?_
      · have : q = [] ∨ q = ["c.n5"] ∨ q = ["c.n5", "g"] ∨ q = ["c.n5", "g", "d"] := by
          obtain ⟨t, ht⟩ := hq
          match q, ht with
          | [], _ => simp
          | [a], ht => simp at ht; simp [ht.1]
          | [a, b], ht => simp at ht; simp [ht.1, ht.2.1]
          | [a, b, c], ht => simp at ht; simp [ht.1, ht.2.1, ht.2.2.1]
          | a :: b :: c :: d :: q, ht => simp at ht
        rcases this with rfl | rfl | rfl | rfl <;> rfl
      · refine exFound_below ?_
        rintro rfl
        exact absurd (List.prefix_nil.1 hq) (by simp)
    have ht : exFound.HasText ["c.n5", "g", "d", "attributes.json"] (exForeignDoc [("unit", .str "nm")]) := by
      obtain ⟨bom, t, h1, h2, h3⟩ := exForeign_text exForeign_plain_unit
      refine ⟨bom, t, h1, h2, ?_⟩
      unfold RawFs.content at h3 ⊢
      rw [exFound_below (by simp)]
      exact h3
    refine ⟨exForeignDesc, (exForeignDoc [("unit", .str "nm")]).find, ⟨rfl, rfl, rfl, rfl, ⟨.zero, .int 0, rfl, by decide +kernel, rfl⟩,
      exForeign_supported, by decide⟩, hh, ?_, .inr ⟨_, ht, ⟨_, rfl, by decide⟩, rfl⟩, fun k => ?_⟩
    · intro j hj
      have h1 := hj.view (p := ["c.n5", "g", "d"]) (n := "attributes.json") (by decide)
      have h2 := ht.view (p := ["c.n5", "g", "d"]) (n := "attributes.json") (by decide)
      have h3 : some (Entry.doc j) = _ := h1.symm.trans h2
      cases h3
      exact .inr rfl
    · show (if k = "unit" then _ else _) = _
      by_cases e : k = "unit"
      · subst e; rfl
      · rw [if_neg e]
        split
        · rfl
        · rename_i hk
          have hk : k ∉ ["dimensions", "blockSize", "dataType", "compressionType", "compression"] := fun e => hk ⟨rfl, e⟩
          simp only [List.mem_cons, List.not_mem_nil, or_false, not_or] at hk
          show _ = assocGet _ k
          simp [assocGet, Ne.symm hk.1, Ne.symm hk.2.1, Ne.symm hk.2.2.1, Ne.symm hk.2.2.2.2, Ne.symm e]
  nothing p n hp hn hk := by
    have hk2 : n ≠ "attributes.json" := fun e => hk (by rw [e]; decide)
    rcases exFoundTree_group hp with rfl | rfl
    · have hk1 : n ≠ "g" := fun e => by subst e; cases hn
      show exFound ["c.n5", n] = none
      unfold exFound
      rw [if_neg (by simp [hk1]), if_neg (by simp [hk2])]
      split
      · rename_i e; simp at e; exact absurd e.1 hk1
      · rfl
    · have hk1 : n ≠ "d" := fun e => by subst e; cases hn
      show exFound ["c.n5", "g", n] = none
      rw [exFound_below (by simp)]
      unfold exForeign
      rw [if_neg (by simp [hk1]), if_neg (by simp), if_neg (by simp)]
  documents p n hp hk := by
    rcases exFoundTree_group hp with rfl | rfl
    · show exFound ["c.n5", n] ≠ _
      have hk1 : n ≠ "g" := fun e => hk (by rw [e]; unfold PlainName; decide)
      unfold exFound
      rw [if_neg (by simp [hk1])]
      split
      · exact fun e => by cases e
      · split
        · rename_i e; simp at e; exact absurd e.1 hk1
        · exact fun e => by cases e
    · have hk1 : n ≠ "d" := fun e => hk (by rw [e]; unfold PlainName; decide)
      show exFound ["c.n5", "g", n] ≠ _
      rw [exFound_below (by simp)]
      unfold exForeign
      rw [if_neg (by simp [hk1]), if_neg (by simp), if_neg (by simp)]
      exact fun e => by cases e

/-- It is opened, and the array is read. -/
example : pyFile ["c.n5"] "c.n5" .a none 2 exFound.view = (.ok (exFoundC.group [] .a), exFound.view) ∧
    ∃ o d, (exFoundC.group [] .a).getItem ⟨false, ["g", "d"]⟩ exFound.view = (.ok (.inr o), exFound.view) ∧
      o.typed exLibs (exTypes.cast .uint8) = .ok d ∧ d.ReadsAs ["c.n5", "g", "d"] exFound.view exForeignElems := by
  refine ⟨c85_open (exLibs_lawful _) (fun e => by cases e) exFound_holds (.inr (.inr rfl)) (fun _ e => by cases e), ?_⟩
  obtain ⟨o, d, h1, _, _, _, _, h2, _, h3⟩ := c85_read (exLibs_lawful _) exFound_holds (g := []) ⟨_, rfl⟩ ⟨false, ["g", "d"]⟩ rfl .a
  exact ⟨o, d, h1, h2, h3⟩

/-- A group is created in it; in whatever way the documents are then written down, the files have an N5 container with the new group and
the old array. -/
example : ∃ σ', (exFoundC.group ["g"] .a).createGroup ⟨false, ["h"]⟩ exFound.view = (.ok (exFoundC.group ["g", "h"] .a), σ') ∧
    ∀ R : RawFs, R.Stores σ' → ∃ T' : Tree exTypes, R.HoldsContainer exFoundC exLibs T' ∧ T'.IsGroup ["g", "h"] ∧
      ∃ A, T' ["g", "d"] = some (.array { exFoundItem with content := A }) ∧ A [0] = (5 : Fin (256 ^ 1)) := by
  have hC : exFoundC.Ok := fun e => by cases e
  obtain ⟨σ', h1, h2⟩ := (c66_create_group (g := ["g"]) (ks := []) (n := "h") (exLibs_lawful _) (.found exFound_holds hC) ⟨_, rfl⟩
    (by unfold PlainName; decide) .a).2.2 (fun e => by cases e) rfl
  refine ⟨σ', h1, fun R hR => ?_⟩
  obtain ⟨T', h3, h4⟩ := c85_bytes (exLibs_lawful _) hC h2 hR
  refine ⟨T', h4, ⟨_, h3 ["g", "h"]⟩, ?_⟩
  obtain ⟨A, e1, e2⟩ := h3 ["g", "d"]
  refine ⟨A, e1, ?_⟩
  rcases e2 [0] (by decide) with e | ⟨e, _⟩
  · exact e
  · exact absurd e (by decide +kernel)

end Z5.Props
