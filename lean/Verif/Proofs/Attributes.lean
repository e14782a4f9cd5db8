import Verif.Spec.Attributes
import Verif.Model.Factory
import Verif.Proofs.Metadata

/-!
# Lemmas about attributes
-/

namespace Z5

namespace FsM

theorem bind_run {α β : Type} (x : FsM α) (f : α → FsM β) (σ : Fs) :
    (x >>= f) σ = match x σ with
      | (.ok a, σ) => f a σ
      | (.throw e, σ) => (.throw e, σ)
      | (.ub, σ) => (.ub, σ) := rfl

theorem pure_run {α : Type} (a : α) (σ : Fs) : (pure a : FsM α) σ = (.ok a, σ) := rfl
theorem lift_run {α : Type} (r : Res α) (σ : Fs) : (lift r) σ = (r, σ) := rfl
theorem exist_run (p : Path) (σ : Fs) : exist p σ = (.ok (σ p).isSome, σ) := rfl
theorem ite_run {α : Type} (c : Prop) [Decidable c] (x y : FsM α) (σ : Fs) :
    (if c then x else y) σ = if c then x σ else y σ := by split <;> rfl

theorem parse_doc {σ : Fs} {p : Path} {j : Json} (h : σ p = some (.doc j)) :
    parse p σ = (.ok j, σ) := by simp only [parse, h]

theorem writeDoc_run {σ : Fs} {p : Path} {n : String} {j : Json} (hd : σ p = some .dir)
    (hn : σ (p ++ [n]) ≠ some .dir) :
    writeDoc (p ++ [n]) j σ = (.ok (), fun q => if q = p ++ [n] then some (.doc j) else σ q) := by
  have h2 : isDirectory (σ (p ++ [n])) = false := by
    cases h : σ (p ++ [n]) with
    | none => rfl
    | some e => cases e <;> first | rfl | exact absurd h hn
  simp only [writeDoc, List.dropLast_concat, hd, h2]
  rfl

end FsM

theorem jsonRead_none {σ : Fs} {p n : Path} (h : σ (p ++ n) = none) :
    jsonRead p n σ = (.ok none, σ) := by
  simp [jsonRead, FsM.bind_run, FsM.exist_run, FsM.ite_run, FsM.pure_run, h]

theorem jsonRead_doc {σ : Fs} {p n : Path} {j : Json} (h : σ (p ++ n) = some (.doc j)) :
    jsonRead p n σ = (.ok (some j), σ) := by
  simp [jsonRead, FsM.bind_run, FsM.exist_run, FsM.ite_run, FsM.pure_run, FsM.parse_doc h, h]

/-! ## association lists -/

theorem nodup_assocSet {β : Type} {l : List (String × β)} (h : (l.map Prod.fst).Nodup) (k : String)
    (v : β) : ((assocSet l k v).map Prod.fst).Nodup ∧
      ∀ k', k' ∈ (assocSet l k v).map Prod.fst ↔ k' = k ∨ k' ∈ l.map Prod.fst := by
  induction l with
  | nil => simp [assocSet]
  | cons p l ih =>
    obtain ⟨a, b⟩ := p
    rw [List.map_cons, List.nodup_cons] at h
    obtain ⟨i1, i2⟩ := ih h.2
    unfold assocSet
    split
    case isTrue e =>
      subst e
      refine ⟨by rw [List.map_cons, List.nodup_cons]; exact h, fun k' => ?_⟩
      simp
    case isFalse e =>
      refine ⟨?_, fun k' => ?_⟩
      · rw [List.map_cons, List.nodup_cons]
        refine ⟨fun hm => ?_, i1⟩
        rcases (i2 a).1 hm with r | r
        · exact e r
        · exact h.1 r
      · rw [List.map_cons, List.mem_cons, i2 k', List.map_cons, List.mem_cons]
        constructor
        · rintro (r | r | r)
          · exact .inr (.inl r)
          · exact .inl r
          · exact .inr (.inr r)
        · rintro (r | r | r)
          · exact .inr (.inl r)
          · exact .inl r
          · exact .inr (.inr r)

theorem nodup_assocErase {β : Type} {l : List (String × β)} (h : (l.map Prod.fst).Nodup) (k : String) :
    ((assocErase l k).map Prod.fst).Nodup :=
  (List.filter_sublist.map _).nodup h

theorem assocGet_isSome {β : Type} (l : List (String × β)) (k : String) :
    (assocGet l k).isSome ↔ k ∈ l.map Prod.fst := by
  induction l with
  | nil => simp [assocGet]
  | cons p l ih =>
    obtain ⟨a, b⟩ := p
    unfold assocGet
    split
    case isTrue e => simp [e]
    case isFalse e =>
      rw [ih, List.map_cons, List.mem_cons]
      exact ⟨.inr, fun h => h.resolve_left fun h => e h.symm⟩

/-- The loop that sets all keys of an object -/
theorem setAll_obj {items : List (String × Json)} : ∀ {l : List (String × Json)},
    (items.map Prod.fst).Nodup → (l.map Prod.fst).Nodup →
    ∃ l', setAll (.obj l) items = .ok (.obj l') ∧ (l'.map Prod.fst).Nodup ∧
      ∀ k, assocGet l' k = match assocGet items k with
        | some v => some v
        | none => assocGet l k := by
  induction items with
  | nil => exact fun _ hl => ⟨_, rfl, hl, fun _ => rfl⟩
  | cons p items ih =>
    obtain ⟨a, b⟩ := p
    intro l hi hl
    rw [List.map_cons, List.nodup_cons] at hi
    obtain ⟨l', h1, h2, h3⟩ := ih (l := assocSet l a b) hi.2 (nodup_assocSet hl a b).1
    refine ⟨l', h1, h2, fun k => ?_⟩
    rw [h3, assocGet_set]
    by_cases e : a = k
    · subst e
      have : assocGet items a = none := by
        cases h : assocGet items a with
        | none => rfl
        | some v =>
          have := (assocGet_isSome items a).1 (by rw [h]; rfl)
          exact absurd this hi.1
      rw [this]
      simp only [assocGet, if_true]
    · simp only [assocGet, if_neg e]

/-! ## the documents -/

theorem mergeAttributes_ok {out j : Json} (ho : out.IsObject) (hj : j.IsObject) :
    ∃ d, mergeAttributes out j = .ok d ∧ d.IsObject ∧
      ∀ k, d.find k = match j.find k with
        | some v => some v
        | none => out.find k := by
  obtain ⟨l, rfl, hl⟩ := ho
  obtain ⟨items, rfl, hi⟩ := hj
  obtain ⟨l', h1, h2, h3⟩ := setAll_obj hi hl
  exact ⟨.obj l', h1, ⟨l', rfl, h2⟩, h3⟩

theorem set_ok {out : Json} (ho : out.IsObject) (k : String) (v : Json) :
    ∃ d, out.set k v = .ok d ∧ d.IsObject ∧ ∀ k', d.find k' = if k = k' then some v else out.find k' := by
  obtain ⟨l, rfl, hl⟩ := ho
  exact ⟨_, rfl, ⟨_, rfl, (nodup_assocSet hl k v).1⟩, fun k' => assocGet_set l k v k'⟩

theorem erase_ok {out : Json} (ho : out.IsObject) (k : String) :
    ∃ d, out.erase k = .ok d ∧ d.IsObject ∧ ∀ k', d.find k' = if k = k' then none else out.find k' := by
  obtain ⟨l, rfl, hl⟩ := ho
  exact ⟨_, rfl, ⟨_, rfl, nodup_assocErase hl k⟩, fun k' => assocGet_erase l k k'⟩

theorem isObject_empty : (Json.obj []).IsObject := ⟨[], rfl, List.nodup_nil⟩

/-- Replacing one file -/
def Fs.setDoc (σ : Fs) (p : Path) (d : Json) : Fs := fun q => if q = p then some (.doc d) else σ q

theorem docAt_setDoc (σ : Fs) (p : Path) (d : Json) : (σ.setDoc p d).docAt p = some d := by
  simp [Fs.docAt, Fs.setDoc]

theorem docAt_doc {σ : Fs} {p : Path} {d : Json} (h : σ p = some (.doc d)) : σ.docAt p = some d := by
  simp [Fs.docAt, h]

theorem docAt_none {σ : Fs} {p : Path} (h : σ p = none) : σ.docAt p = none := by
  simp [Fs.docAt, h]

theorem append_ne_self {p : Path} {n : String} : p ++ [n] ≠ p := by
  intro h
  have := congrArg List.length h
  simp at this

theorem setDoc_of_ne {σ : Fs} {p q : Path} {d : Json} (h : q ≠ p) : (σ.setDoc p d) q = σ q := if_neg h

theorem Fs.Node.notDir {σ : Fs} {p : Path} {L : Layout} (h : σ.Node p L) :
    σ (p ++ [L.file]) ≠ some .dir := by
  rcases h.doc with e | ⟨j, e, _⟩ <;> rw [e] <;> exact fun h => by cases h

/-- The attributes in the document `d` -/
def docAttr (L : Layout) (d : Json) (k : String) : Option Json :=
  match L with
  | .v3 => (d.find "attributes").bind (·.find k)
  | _ => d.find k

theorem docAttr_flat {L : Layout} (hL : L ≠ .v3) (d : Json) (k : String) : docAttr L d k = d.find k := by
  cases L <;> first | rfl | exact absurd rfl hL

/-- Writing the file with the attributes -/
theorem Fs.Node.set {σ : Fs} {p : Path} {L : Layout} {d : Json} {A : AttrMap} (h : σ.Node p L)
    (hd : d.IsObject) (h3 : L = .v3 → ∀ a, d.find "attributes" = some a → a.IsObject)
    (hA : ∀ k, A k = docAttr L d k)
    (hr : L = .v3 → ∀ k, k ≠ "attributes" →
      d.find k = (σ.docAt (p ++ ["zarr.json"])).bind (·.find k)) :
    σ.OnlyAttributes (σ.setDoc (p ++ [L.file]) d) p L A where
  node :=
    { dir := by rw [setDoc_of_ne append_ne_self.symm]; exact h.dir
      doc := .inr ⟨d, if_pos rfl, hd⟩
      v3 := fun e => by subst e; exact ⟨d, if_pos rfl, hd, h3 rfl⟩
      v2 := fun e => by
        subst e
        rw [setDoc_of_ne (by simp [Layout.file])]
        exact h.v2 rfl }
  attributes := by
    funext k
    rw [hA]
    cases L <;> simp only [Fs.attributes, Layout.file, docAt_setDoc] <;> rfl
  files := fun q hq => setDoc_of_ne hq
  rest := fun e k hk => by
    subst e
    rw [← hr rfl k hk]
    simp only [Layout.file, docAt_setDoc]
    rfl
  kept := fun _ => by simp [Fs.setDoc]

theorem flat_test {σ : Fs} {p : Path} {L : Layout} (h : σ.Node p L) (hL : L ≠ .v3) :
    (L.isZarr && (σ (p ++ ["zarr.json"])).isSome) = false := by
  cases L with
  | v2 => rw [h.v2 rfl]; rfl
  | v3 => exact absurd rfl hL
  | n5 => rfl

theorem flat_name {L : Layout} (hL : L ≠ .v3) : Generic.attributesName L.isZarr = L.file := by
  cases L <;> first | rfl | exact absurd rfl hL

theorem generic_write_flat {σ : Fs} {p : Path} {L : Layout} {j : Json} (h : σ.Node p L) (hL : L ≠ .v3)
    (hj : j.IsObject) :
    ∃ σ', Generic.writeAttributes p L.isZarr j σ = (.ok (), σ') ∧
      σ.OnlyAttributes σ' p L ((AttrOp.write j).apply (σ.attributes p L)) := by
  have hA : ∀ k, σ.attributes p L k = (σ.docAt (p ++ [L.file])).bind (·.find k) := by
    intro k
    cases L <;> first | rfl | exact absurd rfl hL
  have e0 : Generic.writeAttributes p L.isZarr j σ = (do
      let out := (← jsonRead p [L.file]).getD (.obj [])
      let out ← FsM.lift (mergeAttributes out j)
      FsM.writeDoc (p ++ [L.file]) out : FsM Unit) σ := by
    simp only [Generic.writeAttributes, FsM.bind_run, FsM.exist_run, flat_test h hL, Bool.false_eq_true,
      if_false, flat_name hL]
  obtain ⟨o, ho1, ho2, ho3⟩ : ∃ o, (jsonRead p [L.file] σ).1 = .ok o ∧
      jsonRead p [L.file] σ = (.ok o, σ) ∧ (o.getD (.obj [])).IsObject ∧
      ∀ k, (o.getD (.obj [])).find k = (σ.docAt (p ++ [L.file])).bind (·.find k) := by
    rcases h.doc with e | ⟨d, e, hd⟩
    · refine ⟨none, by rw [jsonRead_none e], jsonRead_none e, isObject_empty, fun k => ?_⟩
      rw [docAt_none e]
      rfl
    · refine ⟨some d, by rw [jsonRead_doc e], jsonRead_doc e, hd, fun k => ?_⟩
      rw [docAt_doc e]
      rfl
  obtain ⟨d, d1, d2, d3⟩ := mergeAttributes_ok ho3.1 hj
  refine ⟨σ.setDoc (p ++ [L.file]) d, ?_, h.set d2 ?_ ?_ ?_⟩
  · rw [e0]
    simp only [FsM.bind_run, ho2, FsM.lift_run, d1]
    exact FsM.writeDoc_run h.dir h.notDir
  · exact fun e => absurd e hL
  · intro k
    rw [docAttr_flat hL, d3]
    simp only [AttrOp.apply, hA, ho3.2]
    cases j.find k <;> rfl
  · exact fun e => absurd e hL

/-- No change -/
theorem Fs.Node.same {σ : Fs} {p : Path} {L : Layout} {A : AttrMap} (h : σ.Node p L)
    (hA : σ.attributes p L = A) : σ.OnlyAttributes σ p L A :=
  ⟨h, hA, fun _ _ => rfl, fun _ _ _ => rfl, id⟩

theorem generic_remove_flat {σ : Fs} {p : Path} {L : Layout} {key : String} (h : σ.Node p L)
    (hL : L ≠ .v3) :
    ∃ σ', Generic.removeAttribute p L.isZarr key σ = (.ok (), σ') ∧
      σ.OnlyAttributes σ' p L ((AttrOp.remove key).apply (σ.attributes p L)) := by
  have hA : ∀ k, σ.attributes p L k = (σ.docAt (p ++ [L.file])).bind (·.find k) := by
    intro k
    cases L <;> first | rfl | exact absurd rfl hL
  have e0 : Generic.removeAttribute p L.isZarr key σ = (do
      match ← jsonRead p [L.file] with
      | none => return ()
      | some out =>
        let out ← FsM.lift (out.erase key)
        FsM.writeDoc (p ++ [L.file]) out : FsM Unit) σ := by
    simp only [Generic.removeAttribute, FsM.bind_run, FsM.exist_run, flat_test h hL, Bool.false_eq_true,
      if_false, flat_name hL]
    rfl
  rcases h.doc with e | ⟨f, e, hf⟩
  · refine ⟨σ, ?_, h.same ?_⟩
    · rw [e0]
      simp only [FsM.bind_run, jsonRead_none e]
      rfl
    · funext k
      simp only [AttrOp.apply, hA, docAt_none e]
      split <;> rfl
  · obtain ⟨d, d1, d2, d3⟩ := erase_ok hf key
    refine ⟨σ.setDoc (p ++ [L.file]) d, ?_, h.set d2 ?_ ?_ ?_⟩
    · rw [e0]
      simp only [FsM.bind_run, jsonRead_doc e, FsM.lift_run, d1]
      exact FsM.writeDoc_run h.dir h.notDir
    · exact fun e => absurd e hL
    · intro k
      rw [docAttr_flat hL, d3]
      simp only [AttrOp.apply, hA, docAt_doc e, Option.bind_some]
      by_cases ek : k = key
      · rw [if_pos ek, if_pos ek.symm]
      · rw [if_neg ek, if_neg (Ne.symm ek)]
    · exact fun e => absurd e hL

theorem generic_write {σ : Fs} {p : Path} {L : Layout} {j : Json} (h : σ.Node p L) (hj : j.IsObject) :
    ∃ σ', Generic.writeAttributes p L.isZarr j σ = (.ok (), σ') ∧
      σ.OnlyAttributes σ' p L ((AttrOp.write j).apply (σ.attributes p L)) := by
  cases L with
  | v3 =>
    obtain ⟨f, hf, hfo, hfa⟩ := h.v3 rfl
    have ha : ((f.find "attributes").getD (.obj [])).IsObject := by
      cases e : f.find "attributes" with
      | none => exact isObject_empty
      | some a => exact hfa a e
    obtain ⟨a, a1, a2, a3⟩ := mergeAttributes_ok ha hj
    obtain ⟨d, d1, d2, d3⟩ := set_ok hfo "attributes" a
    refine ⟨σ.setDoc (p ++ ["zarr.json"]) d, ?_, h.set d2 ?_ ?_ ?_⟩
    · have hex : (σ (p ++ ["zarr.json"])).isSome = true := by rw [hf]; rfl
      simp only [Generic.writeAttributes, FsM.bind_run, FsM.exist_run, hex, Layout.isZarr,
        Bool.true_and, Bool.and_self, if_true, Generic.writeV3Attributes, jsonRead_doc hf, Option.getD_some,
        FsM.lift_run, a1, d1]
      exact FsM.writeDoc_run h.dir h.notDir
    · intro _ b hb
      rw [d3, if_pos rfl] at hb
      cases hb
      exact a2
    · intro k
      show _ = (d.find "attributes").bind _
      rw [d3, if_pos rfl]
      simp only [AttrOp.apply, Fs.attributes, docAt_doc hf, Option.bind_some, a3]
      cases j.find k with
      | some v => rfl
      | none => cases f.find "attributes" <;> rfl
    · intro _ k hk
      rw [d3, if_neg hk.symm, docAt_doc hf]
      rfl
  | v2 => exact generic_write_flat h (by decide) hj
  | n5 => exact generic_write_flat h (by decide) hj

theorem generic_remove {σ : Fs} {p : Path} {L : Layout} {key : String} (h : σ.Node p L) :
    ∃ σ', Generic.removeAttribute p L.isZarr key σ = (.ok (), σ') ∧
      σ.OnlyAttributes σ' p L ((AttrOp.remove key).apply (σ.attributes p L)) := by
  cases L with
  | v3 =>
    obtain ⟨f, hf, hfo, hfa⟩ := h.v3 rfl
    have hex : (σ (p ++ ["zarr.json"])).isSome = true := by rw [hf]; rfl
    have e0 : Generic.removeAttribute p Layout.v3.isZarr key σ
        = (match f.find "attributes" with
            | none => FsM.writeDoc (p ++ ["zarr.json"]) f
            | some attrs => do
              let attrs ← FsM.lift (attrs.erase key)
              let full ← FsM.lift (f.set "attributes" attrs)
              FsM.writeDoc (p ++ ["zarr.json"]) full) σ := by
      have ht : (Layout.v3.isZarr && (σ (p ++ ["zarr.json"])).isSome) = true := by rw [hex]; rfl
      simp only [Generic.removeAttribute, FsM.bind_run, FsM.exist_run, ht, if_true,
        Generic.removeV3Attribute, jsonRead_doc hf]
      rfl
    cases ea : f.find "attributes" with
    | none =>
      refine ⟨σ.setDoc (p ++ ["zarr.json"]) f, ?_, h.set hfo ?_ ?_ ?_⟩
      · rw [e0, ea]
        exact FsM.writeDoc_run h.dir h.notDir
      · exact fun _ => hfa
      · intro k
        show _ = (f.find "attributes").bind _
        simp only [AttrOp.apply, Fs.attributes, docAt_doc hf, Option.bind_some, ea]
        split <;> rfl
      · intro _ k hk
        rw [docAt_doc hf]
        rfl
    | some b =>
      obtain ⟨a, a1, a2, a3⟩ := erase_ok (hfa b ea) key
      obtain ⟨d, d1, d2, d3⟩ := set_ok hfo "attributes" a
      refine ⟨σ.setDoc (p ++ ["zarr.json"]) d, ?_, h.set d2 ?_ ?_ ?_⟩
      · rw [e0, ea]
        simp only [FsM.bind_run, FsM.lift_run, a1, d1]
        exact FsM.writeDoc_run h.dir h.notDir
      · intro _ c hc
        rw [d3, if_pos rfl] at hc
        cases hc
        exact a2
      · intro k
        show _ = (d.find "attributes").bind _
        rw [d3, if_pos rfl]
        simp only [AttrOp.apply, Fs.attributes, docAt_doc hf, Option.bind_some, ea, a3]
        by_cases e : k = key
        · rw [if_pos e, if_pos e.symm]
        · rw [if_neg e, if_neg (Ne.symm e)]
      · intro _ k hk
        rw [d3, if_neg hk.symm, docAt_doc hf]
        rfl
  | v2 => exact generic_remove_flat h (by decide)
  | n5 => exact generic_remove_flat h (by decide)

theorem generic_read {σ : Fs} {p : Path} {L : Layout} (h : σ.Node p L) :
    ∃ j, Generic.readAttributes p L.isZarr .null σ = (.ok j, σ) ∧ (j = .null ∨ j.IsObject) ∧
      (L ≠ .v3 → σ (p ++ [L.file]) ≠ none → j.IsObject) ∧
      ∀ k, j.find k = σ.attributes p L k := by
  by_cases hL : L = .v3
  · subst hL
    obtain ⟨f, hf, hfo, hfa⟩ := h.v3 rfl
    have hex : (σ (p ++ ["zarr.json"])).isSome = true := by rw [hf]; rfl
    refine ⟨(f.find "attributes").getD .null, ?_, ?_, fun e => absurd rfl e, fun k => ?_⟩
    · have ht : (Layout.v3.isZarr && (σ (p ++ ["zarr.json"])).isSome) = true := by rw [hex]; rfl
      simp only [Generic.readAttributes, FsM.bind_run, FsM.exist_run, ht, if_true,
        Generic.readV3Attributes, jsonRead_doc hf]
      rfl
    · cases e : f.find "attributes" with
      | none => exact .inl rfl
      | some a => exact .inr (hfa a e)
    · simp only [Fs.attributes, docAt_doc hf, Option.bind_some]
      cases f.find "attributes" <;> rfl
  · have hA : ∀ k, σ.attributes p L k = (σ.docAt (p ++ [L.file])).bind (·.find k) := by
      intro k
      cases L <;> first | rfl | exact absurd rfl hL
    have e0 : Generic.readAttributes p L.isZarr .null σ = (do
        let d ← jsonRead p [L.file]
        return d.getD .null : FsM Json) σ := by
      simp only [Generic.readAttributes, FsM.bind_run, FsM.exist_run, flat_test h hL, Bool.false_eq_true,
        if_false, flat_name hL]
    rcases h.doc with e | ⟨d, e, hd⟩
    · refine ⟨.null, ?_, .inl rfl, fun _ hn => absurd e hn, fun k => ?_⟩
      · rw [e0]
        simp only [FsM.bind_run, jsonRead_none e]
        rfl
      · rw [hA, docAt_none e]
        rfl
    · refine ⟨d, ?_, .inr hd, fun _ _ => hd, fun k => ?_⟩
      · rw [e0]
        simp only [FsM.bind_run, jsonRead_doc e]
        rfl
      · rw [hA, docAt_doc e]
        rfl

/-! ## handles -/

theorem hideN5_ok {j : Json} (h : j.IsObject) :
    ∃ d, hideN5Dataset j = .ok d ∧ d.IsObject ∧
      ∀ k, d.find k = if n5DatasetKeys.contains k then none else j.find k := by
  obtain ⟨a, a1, a2, a3⟩ := erase_ok h "dimensions"
  obtain ⟨b, b1, b2, b3⟩ := erase_ok a2 "blockSize"
  obtain ⟨c, c1, c2, c3⟩ := erase_ok b2 "dataType"
  obtain ⟨d, d1, d2, d3⟩ := erase_ok c2 "compressionType"
  obtain ⟨e, e1, e2, e3⟩ := erase_ok d2 "compression"
  refine ⟨e, ?_, e2, fun k => ?_⟩
  · simp only [hideN5Dataset, n5DatasetKeys, List.foldlM_cons, List.foldlM_nil, a1, b1, c1, d1, e1,
      Res.ok_bind, Res.pure_eq]
  · rw [e3, d3, c3, b3, a3]
    simp only [n5DatasetKeys, List.contains_cons, List.contains_nil, Bool.or_false, Bool.or_eq_true,
      beq_iff_eq]
    grind

theorem protectN5_eq (j : Json) : protectN5Dataset j
    = if (AttrOp.write j).names n5DatasetKeys then .throw .runtimeError else .ok () := rfl

/-- Only keys that are not locked can be changed. -/
theorem Target.change_run {t : Target} {σ : Fs} {L : Layout} {op : AttrOp} (hw : t.mode.canWrite = true)
    (h : t.Refers σ L) :
    t.change op σ = if op.names (t.locked L) then (.throw .runtimeError, σ)
      else match op with
        | .write j => Generic.writeAttributes t.path L.isZarr j σ
        | .remove k => Generic.removeAttribute t.path L.isZarr k σ := by
  have hz := h.zarr
  cases t with
  | group g =>
    have hw : g.mode.canWrite = true := hw
    have hz : g.isZarr σ = (.ok L.isZarr, σ) := hz
    have hl : op.names ((group g).locked L) = false := by
      cases op <;> cases L <;> rfl
    rw [hl]
    cases op <;> simp [change, GroupHandle.writeAttributes, GroupHandle.removeAttribute, hw, FsM.bind_run,
      hz, path]
  | file g =>
    have hw : g.mode.canWrite = true := hw
    have hz : g.isZarr σ = (.ok L.isZarr, σ) := hz
    cases L with
    | n5 =>
      cases op with
      | write j =>
        simp only [change, GroupHandle.writeFileAttributes, hw, FsM.bind_run, hz, path, locked,
          AttrOp.names, List.any_cons, List.any_nil, Bool.or_false, protectN5File]
        cases (j.find "n5").isSome <;> simp [Layout.isZarr, FsM.lift_run, FsM.bind_run, hz]
      | remove k =>
        simp only [change, GroupHandle.removeFileAttribute, hw, FsM.bind_run, hz, path, locked,
          AttrOp.names, List.contains_cons, List.contains_nil, Bool.or_false, beq_iff_eq]
        by_cases hk : k = "n5" <;> simp [Layout.isZarr, FsM.lift_run, FsM.bind_run, hz, hk]
    | _ =>
      cases op <;> simp [change, GroupHandle.writeFileAttributes, GroupHandle.removeFileAttribute, hw,
        FsM.bind_run, hz, path, locked, AttrOp.names, Layout.isZarr]
  | dataset d =>
    have hw : d.mode.canWrite = true := hw
    have hz : d.isZarr σ = (.ok L.isZarr, σ) := hz
    cases L with
    | n5 =>
      cases op with
      | write j =>
        simp only [change, DatasetHandle.writeAttributes, hw, FsM.bind_run, hz, path, locked,
          protectN5_eq]
        have : (AttrOp.write j).names n5DatasetKeys = (AttrOp.write j).names
          ["dimensions", "blockSize", "dataType", "compressionType", "compression"] := rfl
        rw [this]
        rcases Bool.eq_false_or_eq_true ((AttrOp.write j).names
          ["dimensions", "blockSize", "dataType", "compressionType", "compression"]) with hn | hn <;>
          simp only [hn, Bool.not_true, Bool.false_eq_true, if_false, if_true, FsM.bind_run, hz,
            Layout.isZarr, Bool.not_false, FsM.lift_run]
      | remove k =>
        simp only [change, DatasetHandle.removeAttribute, hw, FsM.bind_run, hz, path, locked,
          AttrOp.names]
        have : n5DatasetKeys.contains k
          = ["dimensions", "blockSize", "dataType", "compressionType", "compression"].contains k := rfl
        rw [this]
        rcases Bool.eq_false_or_eq_true
          (["dimensions", "blockSize", "dataType", "compressionType", "compression"].contains k)
          with hn | hn <;>
          simp only [hn, Bool.not_true, Bool.false_eq_true, if_false, if_true, FsM.bind_run, hz,
            Layout.isZarr, Bool.not_false, FsM.lift_run]
    | _ =>
      cases op <;> simp [change, DatasetHandle.writeAttributes, DatasetHandle.removeAttribute, hw,
        FsM.bind_run, hz, path, locked, AttrOp.names, Layout.isZarr]

end Z5
