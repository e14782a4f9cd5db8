import Verif.Props.Attributes
import Verif.Proofs.PyDataset
import Verif.Spec.PyAttrs

/-!
# `AttributeManager` as a `dict`: lemmas for C67
-/

namespace Z5

variable {t : Target} {σ σ' σ'' : Fs} {L : Layout}

theorem Target.OnlyDict.refl (h : t.Refers σ L) : t.OnlyDict L σ σ := ⟨.refl h.node, h, fun _ _ => rfl⟩

theorem Target.OnlyDict.trans (h : t.OnlyDict L σ σ') (h' : t.OnlyDict L σ' σ'') : t.OnlyDict L σ σ'' :=
  ⟨h.1.trans h'.1, h'.2.1, fun k hk => (h'.2.2 k hk).trans (h.2.2 k hk)⟩

theorem lists_of_assoc {M : AttrMap} {l : List (String × Json)} (hn : (l.map Prod.fst).Nodup)
    (h : ∀ k, assocGet l k = M k) : M.Lists l := by
  refine ⟨hn, fun k v => ⟨fun hm => ?_, fun e => ?_⟩⟩
  · rw [← h]; exact assocGet_of_mem hn hm
  · rw [← h] at e
    clear h hn
    induction l with
    | nil => cases e
    | cons p l ih =>
      obtain ⟨a, b⟩ := p
      unfold assocGet at e
      split at e
      · rename_i hk; cases e; subst hk; exact List.mem_cons_self
      · exact List.mem_cons_of_mem _ (ih e)

/-- what is read is `null` or an object -/
theorem Target.read_object (h : t.Refers σ L) :
    ∃ j, t.read σ = (.ok j, σ) ∧ (j = .null ∨ j.IsObject) ∧ ∀ k, j.find k = t.dict L σ k := by
  obtain ⟨j, h1, h2, h3, h4⟩ := generic_read h.node
  obtain ⟨j', e, hj'⟩ := Target.read_ok h
  refine ⟨j', e, ?_, hj'⟩
  have hz := h.zarr
  cases t with
  | group g =>
    have hz : g.isZarr σ = _ := hz
    have h1 : Generic.readAttributes g.path L.isZarr .null σ = _ := h1
    simp only [read, GroupHandle.readAttributes, FsM.bind_run, hz, h1] at e
    cases e; exact h2
  | file g =>
    have hz : g.isZarr σ = _ := hz
    have h1 : Generic.readAttributes g.path L.isZarr .null σ = _ := h1
    simp only [read, GroupHandle.readAttributes, FsM.bind_run, hz, h1] at e
    cases e; exact h2
  | dataset d =>
    have hz : d.isZarr σ = _ := hz
    have h1 : Generic.readAttributes d.path L.isZarr .null σ = _ := h1
    cases L with
    | n5 =>
      obtain ⟨e', e1, e2, e3⟩ := hideN5_ok (h3 (by decide) (h.dataset d rfl rfl))
      simp only [read, DatasetHandle.readAttributes, FsM.bind_run, hz, h1] at e
      simp [Layout.isZarr, FsM.lift_run, e1] at e
      subst e
      exact .inr e2
    | v2 =>
      simp only [read, DatasetHandle.readAttributes, FsM.bind_run, hz, h1] at e
      simp [Layout.isZarr, FsM.pure_run] at e
      subst e; exact h2
    | v3 =>
      simp only [read, DatasetHandle.readAttributes, FsM.bind_run, hz, h1] at e
      simp [Layout.isZarr, FsM.pure_run] at e
      subst e; exact h2

/-- `_read_attributes` yields the contents of the mapping -/
theorem readDict_ok (h : t.Refers σ L) :
    ∃ l, PyAttrs.readDict t σ = (.ok (.obj l), σ) ∧ (t.dict L σ).Lists l ∧
      ∀ k, assocGet l k = t.dict L σ k := by
  obtain ⟨j, e, hj, hf⟩ := Target.read_object h
  rcases hj with rfl | ⟨l, rfl, hn⟩
  · refine ⟨[], ?_, lists_of_assoc List.nodup_nil fun k => ?_, fun k => ?_⟩
    · simp only [PyAttrs.readDict, FsM.bind_run, e]; rfl
    · exact hf k
    · exact hf k
  · refine ⟨l, ?_, lists_of_assoc hn hf, hf⟩
    simp only [PyAttrs.readDict, FsM.bind_run, e]; rfl

theorem getItem_run (h : t.Refers σ L) (k : String) :
    PyAttrs.getItem t k σ = (match t.dict L σ k with
      | some v => .ok v
      | none => .throw .keyError, σ) := by
  obtain ⟨l, e, _, hf⟩ := readDict_ok h
  simp only [PyAttrs.getItem, FsM.bind_run, e, hf]
  cases t.dict L σ k <;> rfl

theorem catchKey_getItem (h : t.Refers σ L) (k : String) :
    (PyAttrs.getItem t k).catchKey σ = (.ok (t.dict L σ k), σ) := by
  unfold FsM.catchKey
  rw [getItem_run h]
  cases t.dict L σ k <;> rfl

theorem iter_run (h : t.Refers σ L) :
    ∃ l, PyAttrs.iter t σ = (.ok (l.map Prod.fst), σ) ∧ (t.dict L σ).Lists l ∧ ∀ k, assocGet l k = t.dict L σ k := by
  obtain ⟨l, e, hl, hf⟩ := readDict_ok h
  exact ⟨l, by simp only [PyAttrs.iter, FsM.bind_run, e]; rfl, hl, hf⟩

theorem itemsOf_run (h : t.Refers σ L) : ∀ {l : List (String × Json)},
    (∀ x ∈ l, t.dict L σ x.1 = some x.2) → PyAttrs.itemsOf t (l.map Prod.fst) σ = (.ok l, σ)
  | [], _ => rfl
  | (k, v) :: l, hl => by
    have ih := itemsOf_run h fun x hx => hl x (List.mem_cons_of_mem _ hx)
    have hk : t.dict L σ k = some v := hl (k, v) List.mem_cons_self
    simp only [List.map_cons, PyAttrs.itemsOf, FsM.bind_run, getItem_run h, hk, ih]
    rfl

/-- the keys a change names -/
def AttrOp.keys : AttrOp → List String
  | .write (.obj l) => l.map Prod.fst
  | .write _ => []
  | .remove k => [k]

theorem names_iff (op : AttrOp) (hop : op.Valid) (ks : List String) :
    op.names ks = true ↔ ∃ k ∈ op.keys, k ∈ ks := by
  cases op with
  | write j =>
    obtain ⟨l, rfl, hl⟩ := hop
    have : ∀ k, ((Json.obj l).find k).isSome = true ↔ k ∈ l.map Prod.fst := fun k => assocGet_isSome l k
    simp only [AttrOp.names, AttrOp.keys, List.any_eq_true, this]
    exact ⟨fun ⟨k, a, b⟩ => ⟨k, b, a⟩, fun ⟨k, a, b⟩ => ⟨k, b, a⟩⟩
  | remove k => simp [AttrOp.names, AttrOp.keys]

theorem hidden_locked (t : Target) (L : Layout) {k : String} (h : k ∈ t.hidden L) : k ∈ t.locked L := by
  cases t <;> cases L <;> first | exact h | cases h

theorem apply_other {op : AttrOp} (hop : op.Valid) {k : String} (hk : k ∉ op.keys) (A : AttrMap) : op.apply A k = A k := by
  cases op with
  | write j =>
    obtain ⟨l, rfl, hl⟩ := hop
    have : (Json.obj l).find k = none := assocGet_none_of_not_mem hk
    simp only [AttrOp.apply, this]
  | remove k' =>
    have : k ≠ k' := by simpa [AttrOp.keys] using hk
    simp [AttrOp.apply, this]

theorem change_refused_read_only (hw : t.mode.canWrite = false) (op : AttrOp) (σ : Fs) :
    t.change op σ = (.throw .invalidArgument, σ) := by
  have hw : (!t.mode.canWrite) = true := by rw [hw]; rfl
  cases t <;> cases op
  all_goals
    simp only [Target.mode] at hw
    simp only [Target.change, GroupHandle.writeAttributes, GroupHandle.removeAttribute,
      GroupHandle.writeFileAttributes, GroupHandle.removeFileAttribute, DatasetHandle.writeAttributes,
      DatasetHandle.removeAttribute, FsM.ite_run, hw, if_true]
    rfl

/-- a change of the attributes is a change of the mapping -/
theorem change_dict (h : t.Refers σ L) {op : AttrOp} (hop : op.Valid) :
    match (t.rules L).refusal op.keys with
    | some e => t.change op σ = (.throw e, σ)
    | none => ∃ σ', t.change op σ = (.ok (), σ') ∧ t.OnlyDict L σ σ' ∧
        t.dict L σ' = op.apply (t.dict L σ) ∧ ∀ k ∈ op.keys, k ∉ t.locked L := by
  have hR : (t.rules L).refusal op.keys = if t.mode.canWrite = false then some .invalidArgument
    else if ∃ k ∈ op.keys, k ∈ t.locked L then some .runtimeError else none := rfl
  rw [hR]
  by_cases hw : t.mode.canWrite = false
  · rw [if_pos hw]; exact change_refused_read_only hw op σ
  · rw [if_neg hw]
    have hw : t.mode.canWrite = true := by simpa using hw
    obtain ⟨h1, h2⟩ := c29_change hw h hop
    by_cases hn : ∃ k ∈ op.keys, k ∈ t.locked L
    · rw [if_pos hn]
      exact h1 ((names_iff op hop _).2 hn)
    · rw [if_neg hn]
      have hn' : op.names (t.locked L) = false := by
        cases e : op.names (t.locked L) with
        | false => rfl
        | true => exact absurd ((names_iff op hop _).1 e) hn
      obtain ⟨σ', e, ho, hr⟩ := h2 hn'
      have hk : ∀ k ∈ op.keys, k ∉ t.locked L := fun k a b => hn ⟨k, a, b⟩
      refine ⟨σ', e, ⟨?_, hr, fun k hk' => ?_⟩, ?_, hk⟩
      · rw [ho.attributes]; exact ho
      · rw [ho.attributes]
        exact apply_other hop (fun hm => hk k hm (hidden_locked t L hk')) _
      · funext k
        unfold Target.dict Target.shown
        rw [ho.attributes]
        by_cases hc : (t.hidden L).contains k = true
        · rw [if_pos hc, apply_other hop, if_pos hc]
          exact fun hm => hk k hm (hidden_locked t L (by simpa using hc))
        · rw [if_neg hc]
          cases op with
          | write j => simp only [AttrOp.apply, hc]; rfl
          | remove k' =>
            simp only [AttrOp.apply, hc]; rfl

theorem refusal_of_key {R : DictRules} {k : String} (hw : R.writable = true) :
    R.refusal [k] = if k ∈ R.locked then some .runtimeError else none := by
  unfold DictRules.refusal
  rw [hw]
  simp

theorem setItem_valid (k : String) (v : Json) : (AttrOp.write (.obj [(k, v)])).Valid := ⟨_, rfl, by simp⟩

theorem setItem_apply (k : String) (v : Json) (M : AttrMap) :
    (AttrOp.write (.obj [(k, v)])).apply M = fun i => if i = k then some v else M i := by
  funext i
  by_cases h : i = k
  · subst h; simp [AttrOp.apply, Json.find, assocGet]
  · simp [AttrOp.apply, Json.find, assocGet, h, Ne.symm h]

end Z5
