import Verif.Props.S3Container
import Verif.Props.ForeignContainer
import Verif.Proofs.S3ContainerBytes

/-!
# C86: containers of other programs on S3

A bucket that some program filled with groups and arrays of zarr v2 or v3 below a name (`RawBucket.HoldsContainer`) is for this library the
tree of these groups and arrays.  All theorems of C79 hold for it (`S3History.found`); here are the ones for the calls that look at
it.  And after any history of calls the bytes are again a container of the format (`c86_bytes`), whoever made the first one.
-/

namespace Z5.Props

open Spec

variable {C : S3Container} {L : Libs} {Ty : ElemTypes} {T : Tree Ty} {R : RawBucket}

/-- **C86, opening.**  `S3File(bucket, name, mode)` in the modes `r`, `r+` and `a` gives the root and changes nothing. -/
theorem c86_open (hL : L.Lawful) (hC : C.Ok) (h : R.HoldsContainer C L T) {a : S3FileArgs} (hz : a.useZarr ≠ some false)
    (hn : a.name = C.root) (hf : a.zarrFormat = C.format) (hm : a.mode ∈ ["r", "r+", "a"]) :
    ∃ f m, (s3File a).Does 5 R.view (.ok f) R.view ∧ f.group = C.group [] m ∧ (m = .r ↔ a.mode = "r") :=
  c79_reopen hL (.found (Ty := Ty) h hC) hz hn hf hm

/-- **C86, looking.**  `name in group`, `group.keys()` and `group[name]` show the groups and arrays of the container. -/
theorem c86_look (hL : L.Lawful) (hC : C.Ok) (h : R.HoldsContainer C L T) {g : Path} (hg : T.IsGroup g) (m : FileMode) :
    (∀ p n, Spells n p → T.Clear (g ++ p) →
      ((C.group g m).contains n).Does 2 R.view (.ok (T (g ++ p)).isSome) R.view ∧
      (T (g ++ p) = none → ((C.group g m).item n).Does 2 R.view (.throw .keyError) R.view) ∧
      (T.IsGroup (g ++ p) → ((C.group g m).item n).Does 8 R.view (.ok (.inl (C.group (g ++ p) m))) R.view)) ∧
    ∃ ns, (C.group g m).handle.keys.Answers R.view (.ok ns) ∧ ns.Nodup ∧
      ∀ n, n ∈ ns ↔ ∃ s : String, s.toList = n ∧ T (g ++ [s]) ≠ none := by
  have hh : S3History C L Ty T [] R.view := .found h hC
  refine ⟨fun p n hs hc => ⟨c79_contains hL hh hg hs hc m, fun e => ?_, fun ⟨A, e⟩ => ?_⟩, c79_keys hL hh hg m⟩
  · have := c79_getitem hL hh hg hs hc m
    rw [e] at this
    exact this
  · have := c79_getitem hL hh hg hs hc m
    rw [e] at this
    exact this

/-- **C86, reading.**  `group[name]` opens every array, with its type and shape, in any mode; nothing changes, and every region that is
read has exactly the elements of the array. -/
theorem c86_read (hL : L.Lawful) (hC : C.Ok) (h : R.HoldsContainer C L T) {g p : Path} {n : Key} (hg : T.IsGroup g) (hs : Spells n p)
    {x : ArrayItem Ty} (hx : T (g ++ p) = some (.array x)) (m : FileMode) :
    ∃ o d, ((C.group g m).item n).Does 18 R.view (.ok (.inr o)) R.view ∧ o.obj.handle.mode = m ∧ o.obj.info.dtype = x.dtype ∧
      o.obj.info.shape = x.shape ∧ o.obj.info.chunkShape = x.chunks ∧ o.typed L (Ty.cast x.dtype) = .ok d ∧ d.base.shape = x.shape ∧
      d.ReadsAsS3 (C.key (g ++ p)) R.view x.content := by
  have hi := S3Container.found_inv h hC
  obtain ⟨hc, a, h1, h2, h3, _⟩ := h.array _ _ hx
  obtain ⟨f, v, e1, e2, e3⟩ := h1.fill
  rw [e3] at h2
  have hstrip := hs.strip
  have hk : pyLstrip n ≠ [] := by
    rw [hstrip]
    exact text_ne_nil hs.1 hs.2.1
  obtain ⟨o, d, r1, r2, r3⟩ := c84_getitem (elem := Ty.cast x.dtype) (g := C.group g m) (n := n) hL h2 h1.supported e1
    (by rw [h1.dtype]; exact e2) (by rw [h1.dtype]; exact hc) hk
    (by rw [hstrip]; exact S3Container.joinKey_key (hi.named (S3Container.isGroup_ne hg)) hs.1)
    ⟨fun _ => S3Container.layout_isZarr, fun _ => hi.isZarr hg⟩ h3
  exact ⟨o, d, r1, r2.mode, r2.dtype.trans h1.dtype, r2.shape.trans h1.shape, r2.chunks.trans h1.chunks, r2.typed,
    r2.base.1.trans h1.shape, r3⟩

/-- **C86, attributes.**  `.attrs` of a group and of an array are those in the objects. -/
theorem c86_attributes (hL : L.Lawful) (hC : C.Ok) (h : R.HoldsContainer C L T) (m : FileMode) :
    (∀ g A, T g = some (.group A) → ∃ j, (C.attrsOf g m).read.Does 6 R.view (.ok j) R.view ∧ ∀ k, j.find k = A k) ∧
    ∀ g p n x, T.IsGroup g → Spells n p → T (g ++ p) = some (.array x) →
      ∃ o j, ((C.group g m).item n).Does 18 R.view (.ok (.inr o)) R.view ∧
        (S3Target.dataset ⟨o.name, o.obj.handle⟩).read.Does 6 R.view (.ok j) R.view ∧ ∀ k, j.find k = x.attrs k := by
  have hh : S3History C L Ty T [] R.view := .found h hC
  refine ⟨fun g A hg => (c79_group_attributes hL hh hg m).1, fun g p n x hg hs hx => ?_⟩
  have hc := (S3Container.found_inv h hC).clear_of_some (p := g ++ p) (by rw [hx]; exact fun e => by cases e)
  have := c79_getitem hL hh hg hs hc m
  rw [hx] at this
  obtain ⟨o, r1, _, _, _, _, r2⟩ := this
  obtain ⟨j, e1, e2⟩ := (c79_array_attributes hL r2 (List.mem_cons_self ..) hx).1
  exact ⟨o, j, r1, e1, e2⟩

/-- **C86, bytes.**  After any history of calls, on a new container or on one of another program, whatever texts stand for the
documents, the bucket has a container of the format: the tree that the calls made of it.  (Elements that compare equal to
the fill value may have become the fill value; `hO`: a bucket has one object for a key, and they are listed in order.) -/
theorem c86_bytes {os : List (Path × S3DatasetObj)} {b : Bucket} (hL : L.Lawful) (hC : C.Ok) (h : S3History C L Ty T os b)
    (hR : R.Stores b) (hO : R.Pairwise fun p q => keyLt p.1 q.1 = true) :
    ∃ T' : Tree Ty, T.StoredAs T' ∧ R.HoldsContainer C L T' :=
  (S3Container.inv_of_history hL h).bytes hL hC hR hO

/-- **C86, going on.**  So the life of a container can go on with what is in the objects: after a process wrote them, every other
process (or program) has the same tree. -/
theorem c86_continue {os : List (Path × S3DatasetObj)} {b : Bucket} (hL : L.Lawful) (hC : C.Ok) (h : S3History C L Ty T os b)
    (hR : R.Stores b) (hO : R.Pairwise fun p q => keyLt p.1 q.1 = true) :
    ∃ T' : Tree Ty, T.StoredAs T' ∧ S3History C L Ty T' [] R.view := by
  obtain ⟨T', h1, h2⟩ := c86_bytes hL hC h hR hO
  exact ⟨T', h1, .found h2 hC⟩

/-! ### Example -/

def exS3FoundDoc : Json := .obj [("chunks", .arr [.int 2]), ("compressor", .null), ("dtype", .str "|u1"), ("fill_value", .int 0),
  ("filters", .null), ("order", .str "C"), ("shape", .arr [.int 3]), ("zarr_format", .int 2)]

def exDumped (j : Json) : Bytes := Utf8.encode (JsonText.text JsonText.dumps exactDigits j)

/-- A container of zarr v2 of another program: a group `g`, and in it an array `d` of three elements in two chunks; the second chunk is
not there. -/
def exS3Found : RawBucket :=
  [("c/.zattrs".toList, exDumped (.obj [("by", .str "zarr-python")])),
    ("c/.zgroup".toList, exDumped (.obj [("zarr_format", .int 2)])),
    ("c/g/.zgroup".toList, exDumped (.obj [("zarr_format", .int 2)])),
    ("c/g/d/.zarray".toList, exDumped exS3FoundDoc),
    ("c/g/d/.zattrs".toList, exDumped (.obj [("unit", .str "nm")])),
    ("c/g/d/0".toList, [5, 6])]

def exS3FoundC : S3Container := ⟨"c".toList, 2⟩

def exS3FoundDesc : ArrayDesc := ⟨.uint8, [3], [2], [], .raw, some (.ofInt 0), ".", "default"⟩

def exS3FoundTree : Tree exTypes := fun p =>
  if p = [] then some (.group fun k => if k = "by" then some (.str "zarr-python") else none)
  else if p = ["g"] then some (.group fun _ => none)
  else if p = ["g", "d"] then some (.array exFoundItem)
  else none

theorem exS3FoundTree_group {p : Path} (h : exS3FoundTree.IsGroup p) : p = [] ∨ p = ["g"] := by
  obtain ⟨A, h⟩ := h
  unfold exS3FoundTree at h
  split at h
  · exact .inl ‹_›
  · split at h
    · exact .inr ‹_›
    · split at h <;> cases h

theorem exS3FoundTree_node {p : Path} {n : String} (h : exS3FoundTree (p ++ [n]) ≠ none) :
    (p = [] ∧ n = "g") ∨ (p = ["g"] ∧ n = "d") := by
  unfold exS3FoundTree at h
  split at h
  · rename_i e; simp at e
  · split at h
    · rename_i e
      have e : p ++ [n] = [] ++ ["g"] := e
      obtain ⟨h1, h2⟩ := List.append_inj' e rfl
      cases h2
      exact .inl ⟨h1, rfl⟩
    · split at h
      · rename_i e
        have e : p ++ [n] = ["g"] ++ ["d"] := e
        obtain ⟨h1, h2⟩ := List.append_inj' e rfl
        cases h2
        exact .inr ⟨h1, rfl⟩
      · exact absurd rfl h

theorem exS3Found_text {k : Key} {j : Json} (hj : JsonText.Plain j) (h : exS3Found.content k = some (exDumped j)) :
    exS3Found.HasText k j :=
  c84_text exactDigits_lawful hj (.inr (.inr rfl)) h

theorem exS3Found_keys {k : Key} (h : exS3Found.content k ≠ none) : k ∈ ["c/.zattrs".toList, "c/.zgroup".toList, "c/g/.zgroup".toList,
    "c/g/d/.zarray".toList, "c/g/d/.zattrs".toList, "c/g/d/0".toList] := by
  unfold RawBucket.content at h
  cases e : exS3Found.find? fun p => p.1 == k with
  | none => rw [e] at h; exact absurd rfl h
  | some y =>
    have h1 := List.mem_of_find?_eq_some e
    have h2 := List.find?_some e
    have h2 : y.1 = k := by simpa using h2
    rw [← h2]
    exact List.mem_map_of_mem (f := (·.1)) h1

theorem exS3Found_holds : exS3Found.HoldsContainer exS3FoundC exLibs exS3FoundTree where
  ordered := by
    have : (exS3Found.map (·.1)).Pairwise fun p q => keyLt p q = true := by
      show List.Pairwise _ ["c/.zattrs".toList, "c/.zgroup".toList, "c/g/.zgroup".toList,
        "c/g/d/.zarray".toList, "c/g/d/.zattrs".toList, "c/g/d/0".toList]
      decide +kernel
    exact List.pairwise_map.1 this
  root := ⟨_, rfl⟩
  closed p n h := by
    rcases exS3FoundTree_node h with ⟨rfl, _⟩ | ⟨rfl, _⟩ <;> exact ⟨_, rfl⟩
  names p n h := by
    rcases exS3FoundTree_node h with ⟨_, rfl⟩ | ⟨_, rfl⟩ <;> (unfold NodeName PlainName; decide)
  group p A h := by
    rcases exS3FoundTree_group ⟨A, h⟩ with rfl | rfl
    · cases h
      refine ⟨⟨rfl, _, exS3Found_text (j := .obj [("zarr_format", .int 2)]) ⟨by decide, ⟨by decide, by decide⟩, trivial⟩ rfl, rfl⟩,
        .inr ⟨_, exS3Found_text (j := .obj [("by", .str "zarr-python")]) ⟨by decide, trivial, trivial⟩ rfl, ⟨_, rfl, by decide⟩, ?_⟩⟩
      funext k
      show _ = assocGet _ k
      by_cases e2 : k = "by"
      · subst e2; rfl
      · rw [if_neg e2]
        simp [assocGet, Ne.symm e2]
    · cases h
      exact ⟨⟨rfl, _, exS3Found_text (j := .obj [("zarr_format", .int 2)]) ⟨by decide, ⟨by decide, by decide⟩, trivial⟩ rfl, rfl⟩,
        .inl ⟨rfl, rfl⟩⟩
  array p x h := by
    have hp : p = ["g", "d"] ∧ x = exFoundItem := by
      unfold exS3FoundTree at h
      split at h
      · cases h
      · split at h
        · cases h
        · split at h
          · cases h; exact ⟨‹_›, rfl⟩
          · cases h
    obtain ⟨rfl, rfl⟩ := hp
    have hplain : JsonText.Plain exS3FoundDoc :=
      ⟨by decide, ⟨⟨by decide, by decide⟩, trivial⟩, trivial, trivial, ⟨by decide, by decide⟩, trivial, trivial,
        ⟨⟨by decide, by decide⟩, trivial⟩, ⟨by decide, by decide⟩, trivial⟩
    refine ⟨rfl, exS3FoundDesc, ⟨rfl, rfl, rfl, rfl, ⟨.ofInt 0, .int 0, rfl, by decide +kernel, rfl⟩,
      ⟨by decide, by decide, by decide, by decide, fun h => absurd rfl h, by decide⟩, by decide⟩, ⟨by decide, ?_, ?_, ?_⟩, ?_, ?_⟩
    · exact ⟨_, exS3Found_text hplain rfl, ⟨rfl, rfl, rfl, rfl, rfl, .inl rfl, ⟨_, rfl, .raw⟩,
        .inl (.int 0), .inr ⟨rfl, rfl⟩, rfl, rfl⟩⟩
    · intro n hn hne
      simp only [List.mem_cons, List.not_mem_nil, or_false] at hn
      rcases hn with rfl | rfl | rfl
      · exact absurd rfl hne
      · rfl
      · rfl
    · refine ⟨_, fun _ _ => rfl, fun c hc => ?_⟩
      rcases exForeign_grid hc with rfl | rfl <;> dsimp only
      · rw [show exS3Found.content (exS3FoundC.key ["g", "d"] ++ '/' :: exS3FoundDesc.fileName exS3FoundC.layout [0]) = some [5, 6] by
          rw [show exS3FoundC.key ["g", "d"] ++ '/' :: exS3FoundDesc.fileName exS3FoundC.layout [0] = "c/g/d/0".toList by decide +kernel]; rfl]
        exact show [5, 6] = _ by decide +kernel
      · rw [show exS3Found.content (exS3FoundC.key ["g", "d"] ++ '/' :: exS3FoundDesc.fileName exS3FoundC.layout [1]) = none by
          rw [show exS3FoundC.key ["g", "d"] ++ '/' :: exS3FoundDesc.fileName exS3FoundC.layout [1] = "c/g/d/1".toList by decide +kernel]; rfl]
        intro i hi
        match i, hi with
        | [0], _ => rfl
        | [1], _ => rfl
        | [k + 2], hi => exact absurd hi.1 (by show ¬ k + 2 < 2; omega)
        | _ :: _ :: _, hi => exact absurd hi.2 id
    · rfl
    · refine .inr ⟨_, exS3Found_text (j := .obj [("unit", .str "nm")]) ⟨by decide, trivial, trivial⟩ rfl, ⟨_, rfl, by decide⟩, ?_⟩
      funext k
      show (if k = "unit" then _ else _) = assocGet _ k
      by_cases e2 : k = "unit"
      · subst e2; rfl
      · rw [if_neg e2]
        simp [assocGet, Ne.symm e2]
  nothing p k hp hk := by
    have hm := exS3Found_keys hk
    simp only [List.mem_cons, List.not_mem_nil, or_false] at hm
    have cut : ∀ {u v t : Key}, u ++ k = v → v = u ++ t → k = t := fun h e => List.append_cancel_left (h.trans e)
    rcases exS3FoundTree_group hp with rfl | rfl
    · have hg : exS3FoundTree ([] ++ ["g"]) ≠ none := fun e => by cases e
      have hd : dirPrefix (exS3FoundC.key []) = "c/".toList := by decide
      rw [hd] at hm
      rcases hm with h | h | h | h | h | h
      · exact .inl ⟨".zattrs", by decide, cut h (by decide)⟩
      · exact .inl ⟨".zgroup", by decide, cut h (by decide)⟩
      · exact .inr ⟨"g", ".zgroup".toList, hg, cut h (by decide)⟩
      · exact .inr ⟨"g", "d/.zarray".toList, hg, cut h (by decide)⟩
      · exact .inr ⟨"g", "d/.zattrs".toList, hg, cut h (by decide)⟩
      · exact .inr ⟨"g", "d/0".toList, hg, cut h (by decide)⟩
    · have hg : exS3FoundTree (["g"] ++ ["d"]) ≠ none := fun e => by cases e
      have hd : dirPrefix (exS3FoundC.key ["g"]) = "c/g/".toList := by decide
      rw [hd] at hm
      have no : ∀ {v : Key}, "c/g/".toList ++ k = v → ¬ "c/g/".toList <+: v → False := fun h e => e ⟨k, h⟩
      rcases hm with h | h | h | h | h | h
      · exact (no h (by decide)).elim
      · exact (no h (by decide)).elim
      · exact .inl ⟨".zgroup", by decide, cut h (by decide)⟩
      · exact .inr ⟨"d", ".zarray".toList, hg, cut h (by decide)⟩
      · exact .inr ⟨"d", ".zattrs".toList, hg, cut h (by decide)⟩
      · exact .inr ⟨"d", "0".toList, hg, cut h (by decide)⟩

theorem exS3Found_spells : Spells "/g/d".toList ["g", "d"] :=
  ⟨by simp, by unfold NodeName PlainName; decide, 1, by decide⟩

/-- It is opened, and the array is read. -/
example : (∃ f, (s3File { name := "c".toList, mode := "a" }).Does 5 exS3Found.view (.ok f) exS3Found.view ∧
      ∃ m, f.group = exS3FoundC.group [] m ∧ m ≠ .r) ∧
    ∃ o d, ((exS3FoundC.group [] .a).item "/g/d".toList).Does 18 exS3Found.view (.ok (.inr o)) exS3Found.view ∧
      o.typed exLibs (exTypes.cast .uint8) = .ok d ∧ d.ReadsAsS3 "c/g/d".toList exS3Found.view exForeignElems := by
  constructor
  · obtain ⟨f, m, h1, h2, h3⟩ := c86_open (a := { name := "c".toList, mode := "a" }) (exLibs_lawful _) (.inl rfl) exS3Found_holds
      (fun e => by cases e) rfl rfl (by simp)
    exact ⟨f, h1, m, h2, fun e => absurd (h3.1 e) (by decide)⟩
  · obtain ⟨o, d, h1, _, _, _, _, h2, _, h3⟩ := c86_read (exLibs_lawful _) (.inl rfl) exS3Found_holds (g := []) ⟨_, rfl⟩
      exS3Found_spells rfl .a
    exact ⟨o, d, h1, h2, h3⟩

/-- A group is created in it; in whatever way the documents are then written down, the bucket has a container of zarr with the new group
and the old array. -/
example : ∃ b', ((exS3FoundC.group ["g"] .a).createGroup "h".toList).Does 9 exS3Found.view (.ok (exS3FoundC.group ["g", "h"] .a)) b' ∧
    ∀ R : RawBucket, R.Stores b' → (R.Pairwise fun p q => keyLt p.1 q.1 = true) →
      ∃ T' : Tree exTypes, R.HoldsContainer exS3FoundC exLibs T' ∧ T'.IsGroup ["g", "h"] ∧
        ∃ A, T' ["g", "d"] = some (.array { exFoundItem with content := A }) ∧ A [0] = (5 : Fin (256 ^ 1)) := by
  have hC : exS3FoundC.Ok := .inl rfl
  obtain ⟨b', h1, h2⟩ := (c79_create_group (g := ["g"]) (ks := []) (n := "h") (exLibs_lawful _) (.found exS3Found_holds hC) ⟨_, rfl⟩
    (by unfold NodeName PlainName; decide) .a).2.2 (fun e => by cases e) rfl
  refine ⟨b', h1, fun R hR hO => ?_⟩
  obtain ⟨T', h3, h4⟩ := c86_bytes (exLibs_lawful _) hC h2 hR hO
  refine ⟨T', h4, ⟨_, h3 ["g", "h"]⟩, ?_⟩
  obtain ⟨A, e1, e2⟩ := h3 ["g", "d"]
  refine ⟨A, e1, ?_⟩
  rcases e2 [0] (by decide) with e | ⟨e, _⟩
  · exact e
  · exact absurd e (by decide +kernel)

end Z5.Props
