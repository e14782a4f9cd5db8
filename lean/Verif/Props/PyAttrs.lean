import Verif.Proofs.PyAttrs

/-!
# C67: `.attrs` is a dict
-/

namespace Z5.Props

variable {t : Target} {σ σ' σ'' : Fs} {L : Layout}

theorem popItem_run (h : t.Refers σ L) : ∃ l, (t.dict L σ).Lists l ∧
    match l with
    | [] => PyAttrs.popItem t σ = (.throw .keyError, σ)
    | (k, v) :: l => match (t.rules L).refusal [k] with
      | some e => PyAttrs.popItem t σ = (.throw e, σ)
      | none => ∃ σ', PyAttrs.popItem t σ = (.ok (k, v), σ') ∧ t.OnlyDict L σ σ' ∧
          t.dict L σ' = (fun i => if i = k then none else t.dict L σ i) ∧ (t.dict L σ').Lists l := by
  obtain ⟨l, e, hl, hf⟩ := iter_run h
  refine ⟨l, hl, ?_⟩
  cases l with
  | nil => simp only [PyAttrs.popItem, FsM.bind_run, e]; rfl
  | cons x l =>
    obtain ⟨k, v⟩ := x
    have hk : t.dict L σ k = some v := (hl.2 k v).1 List.mem_cons_self
    have hrun : PyAttrs.popItem t σ = match t.change (.remove k) σ with
        | (.ok _, σ) => (.ok (k, v), σ)
        | (.throw e, σ) => (.throw e, σ)
        | (.ub, σ) => (.ub, σ) := by
      simp only [PyAttrs.popItem, FsM.bind_run, e, List.map_cons, getItem_run h, hk, PyAttrs.delItem]
      rcases t.change (.remove k) σ with ⟨r, σ'⟩
      cases r <;> rfl
    have hc := change_dict h (op := .remove k) trivial
    show match (t.rules L).refusal [k] with
      | some e => PyAttrs.popItem t σ = (.throw e, σ)
      | none => ∃ σ', PyAttrs.popItem t σ = (.ok (k, v), σ') ∧ t.OnlyDict L σ σ' ∧
          t.dict L σ' = (fun i => if i = k then none else t.dict L σ i) ∧ (t.dict L σ').Lists l
    have hkeys : (AttrOp.remove k).keys = [k] := rfl
    rw [hkeys] at hc
    cases hr : (t.rules L).refusal [k] with
    | some er =>
      rw [hr] at hc
      show _ = _
      rw [hrun, hc]
    | none =>
      rw [hr] at hc
      obtain ⟨σ', e', ho, hd, _⟩ := hc
      refine ⟨σ', by rw [hrun, e'], ho, hd, ?_⟩
      have hn := hl.1
      rw [List.map_cons, List.nodup_cons] at hn
      refine ⟨hn.2, fun i w => ?_⟩
      rw [hd]
      show _ ↔ (if i = k then none else t.dict L σ i) = some w
      by_cases hi : i = k
      · subst hi
        rw [if_pos rfl]
        exact ⟨fun hm => absurd (List.mem_map_of_mem (f := Prod.fst) hm) hn.1, fun e => by cases e⟩
      · rw [if_neg hi, ← hl.2, List.mem_cons]
        exact ⟨.inr, fun hm => hm.resolve_left fun e => hi (congrArg Prod.fst e)⟩

theorem lists_length {M : AttrMap} {l l' : List (String × Json)} (h : M.Lists l) (h' : M.Lists l') :
    l.length = l'.length := by
  have nd : ∀ {l : List (String × Json)}, (l.map Prod.fst).Nodup → l.Nodup := fun {l} h => by
    induction l with
    | nil => exact List.nodup_nil
    | cons x l ih =>
      rw [List.map_cons, List.nodup_cons] at h
      rw [List.nodup_cons]
      exact ⟨fun hm => h.1 (List.mem_map_of_mem hm), ih h.2⟩
  exact ((List.perm_ext_iff_of_nodup (nd h.1) (nd h'.1)).2 fun x => (h.2 x.1 x.2).trans (h'.2 x.1 x.2).symm).length_eq

theorem lists_nil {M : AttrMap} : M.Lists [] ↔ ∀ k, M k = none := by
  refine ⟨fun h k => ?_, fun h => ⟨List.nodup_nil, fun k v => ?_⟩⟩
  · cases e : M k with
    | none => rfl
    | some v => have := (h.2 k v).2 e; cases this
  · rw [h]
    constructor
    · intro e; cases e
    · intro e; cases e

theorem clear_run : ∀ {fuel : Nat} {σ : Fs}, t.Refers σ L → (∀ l, (t.dict L σ).Lists l → l.length < fuel) →
    ∃ r σ', PyAttrs.clear t fuel σ = (r, σ') ∧ t.OnlyDict L σ σ' ∧
      (((∀ k, t.dict L σ k = none) ∧ r = .ok () ∧ t.dict L σ' = t.dict L σ) ∨
      ((∃ k, t.dict L σ k ≠ none) ∧ t.mode.canWrite = false ∧ r = .throw .invalidArgument ∧
        t.dict L σ' = t.dict L σ) ∨
      (t.mode.canWrite = true ∧ (∀ k ∈ t.locked L, t.dict L σ k = none) ∧ r = .ok () ∧
        t.dict L σ' = fun _ => none) ∨
      (t.mode.canWrite = true ∧ (∃ k ∈ t.locked L, t.dict L σ k ≠ none) ∧ r = .throw .runtimeError ∧
        (∀ k ∈ t.locked L, t.dict L σ' k = t.dict L σ k) ∧
        ∀ k, t.dict L σ' k = t.dict L σ k ∨ t.dict L σ' k = none))
  | 0, _, h, hf => by
    obtain ⟨l, _, hl, _⟩ := iter_run h
    exact absurd (hf l hl) (by omega)
  | fuel + 1, σ, h, hf => by
    obtain ⟨l, hl, hrun⟩ := popItem_run h
    cases l with
    | nil =>
      have hrun : PyAttrs.popItem t σ = (.throw .keyError, σ) := hrun
      refine ⟨.ok (), σ, ?_, .refl h, .inl ⟨lists_nil.1 hl, rfl, rfl⟩⟩
      simp only [PyAttrs.clear, FsM.bind_run, FsM.catchKey, hrun]
      rfl
    | cons x l =>
      obtain ⟨k, v⟩ := x
      have hk : t.dict L σ k = some v := (hl.2 k v).1 List.mem_cons_self
      have hne : t.dict L σ k ≠ none := by rw [hk]; simp
      have hrun : match (t.rules L).refusal [k] with
        | some e => PyAttrs.popItem t σ = (.throw e, σ)
        | none => ∃ σ', PyAttrs.popItem t σ = (.ok (k, v), σ') ∧ t.OnlyDict L σ σ' ∧
          t.dict L σ' = (fun i => if i = k then none else t.dict L σ i) ∧ (t.dict L σ').Lists l := hrun
      cases hw : t.mode.canWrite with
      | false =>
        have hr : (t.rules L).refusal [k] = some .invalidArgument := by
          unfold DictRules.refusal
          rw [if_pos (show (t.rules L).writable = false from hw)]
        rw [hr] at hrun
        have hrun : PyAttrs.popItem t σ = (.throw .invalidArgument, σ) := hrun
        refine ⟨.throw .invalidArgument, σ, ?_, .refl h, .inr (.inl ⟨⟨k, hne⟩, rfl, rfl, rfl⟩)⟩
        simp only [PyAttrs.clear, FsM.bind_run, FsM.catchKey, hrun]
      | true =>
        have hr := refusal_of_key (R := t.rules L) (k := k) hw
        by_cases hlk : k ∈ t.locked L
        · rw [hr, if_pos (show k ∈ (t.rules L).locked from hlk)] at hrun
          have hrun : PyAttrs.popItem t σ = (.throw .runtimeError, σ) := hrun
          refine ⟨.throw .runtimeError, σ, ?_, .refl h,
            .inr (.inr (.inr ⟨rfl, ⟨k, hlk, hne⟩, rfl, fun _ _ => rfl, fun _ => .inl rfl⟩))⟩
          simp only [PyAttrs.clear, FsM.bind_run, FsM.catchKey, hrun]
        · rw [hr, if_neg (show k ∉ (t.rules L).locked from hlk)] at hrun
          obtain ⟨σ₁, e₁, ho, hd, hl₁⟩ := hrun
          have hlen := hf _ hl
          simp only [List.length_cons] at hlen
          obtain ⟨r, σ₂, e₂, ho₂, hcase⟩ := clear_run (fuel := fuel) (σ := σ₁) ho.2.1
            (fun l' hl' => by rw [lists_length hl' hl₁]; omega)
          refine ⟨r, σ₂, ?_, ho.trans ho₂, ?_⟩
          · simp only [PyAttrs.clear, FsM.bind_run, FsM.catchKey, e₁]
            exact e₂
          · have hlocked : ∀ i ∈ t.locked L, t.dict L σ₁ i = t.dict L σ i := fun i hi => by
              rw [hd]
              show (if i = k then none else t.dict L σ i) = _
              rw [if_neg (show ¬ i = k from fun e => hlk (e ▸ hi))]
            rcases hcase with ⟨c1, c2, c3⟩ | ⟨_, c2, _⟩ | ⟨_, c2, c3, c4⟩ | ⟨_, ⟨i, hi, c2⟩, c3, c4, c5⟩
            · refine .inr (.inr (.inl ⟨rfl, fun i hi => ?_, c2, ?_⟩))
              · rw [← hlocked i hi]; exact c1 i
              · rw [c3]; funext i; exact c1 i
            · rw [hw] at c2; cases c2
            · exact .inr (.inr (.inl ⟨rfl, fun i hi => by rw [← hlocked i hi]; exact c2 i hi, c3, c4⟩))
            · refine .inr (.inr (.inr ⟨rfl, ⟨i, hi, by rw [← hlocked i hi]; exact c2⟩, c3,
                fun i hi => (c4 i hi).trans (hlocked i hi), fun i => ?_⟩))
              rcases c5 i with e | e
              · rw [e, hd]
                by_cases hik : i = k
                · exact .inr (if_pos hik)
                · exact .inl (if_neg hik)
              · exact .inr e

/-- **C67.**  One operation on `.attrs` of a file, group or dataset (any of the three formats, any mode)
    returns and leaves behind what the operation on a `dict` with locked keys does, and nothing but the
    attributes of that node that are shown is changed. -/
theorem c67_step (h : t.Refers σ L) {op : DictOp} (hv : op.Valid) {fuel : Nat}
    (hf : ∀ l, (t.dict L σ).Lists l → l.length < fuel) :
    DictStep (t.rules L) (t.dict L σ) op (t.dictOp fuel op σ).1 (t.dict L (t.dictOp fuel op σ).2) ∧
    t.OnlyDict L σ (t.dictOp fuel op σ).2 := by
  have hstay : ∀ {r : Res DictOut}, DictStep (t.rules L) (t.dict L σ) op r (t.dict L σ) →
      t.dictOp fuel op σ = (r, σ) →
      DictStep (t.rules L) (t.dict L σ) op (t.dictOp fuel op σ).1 (t.dict L (t.dictOp fuel op σ).2) ∧
      t.OnlyDict L σ (t.dictOp fuel op σ).2 := fun hs e => by
    rw [e]; exact ⟨hs, .refl h⟩
  cases op with
  | getItem k =>
    refine hstay (r := match t.dict L σ k with | some v => .ok (.value v) | none => .throw .keyError)
      ⟨rfl, rfl⟩ ?_
    simp only [Target.dictOp, FsM.bind_run, getItem_run h]
    cases t.dict L σ k <;> rfl
  | get k d =>
    refine hstay (r := match t.dict L σ k with | some v => .ok (.value v) | none => .ok (.value d))
      ⟨rfl, rfl⟩ ?_
    simp only [Target.dictOp, PyAttrs.get, FsM.bind_run, catchKey_getItem h]
    cases t.dict L σ k <;> rfl
  | contains k =>
    refine hstay (r := .ok (.bool (t.dict L σ k).isSome)) ⟨rfl, rfl⟩ ?_
    simp only [Target.dictOp, PyAttrs.contains, FsM.bind_run, catchKey_getItem h]
    rfl
  | iter =>
    obtain ⟨l, e, hl, _⟩ := iter_run h
    refine hstay (r := .ok (.keys (l.map Prod.fst))) ⟨rfl, l, hl, rfl⟩ ?_
    simp only [Target.dictOp, FsM.bind_run, e]
    rfl
  | len =>
    obtain ⟨l, e, hl, _⟩ := readDict_ok h
    refine hstay (r := .ok (.nat l.length)) ⟨rfl, l, hl, rfl⟩ ?_
    simp only [Target.dictOp, PyAttrs.len, FsM.bind_run, e]
    rfl
  | items =>
    obtain ⟨l, e, hl, _⟩ := iter_run h
    refine hstay (r := .ok (.items l)) ⟨rfl, l, hl, rfl⟩ ?_
    simp only [Target.dictOp, PyAttrs.items, FsM.bind_run, e,
      itemsOf_run h (l := l) fun x hx => (hl.2 x.1 x.2).1 hx]
    rfl
  | setItem k v =>
    have hc := change_dict h (setItem_valid k v)
    have hkeys : (AttrOp.write (.obj [(k, v)])).keys = [k] := rfl
    rw [hkeys] at hc
    cases hr : (t.rules L).refusal [k] with
    | some er =>
      rw [hr] at hc
      have hc : t.change (.write (.obj [(k, v)])) σ = (.throw er, σ) := hc
      refine hstay (r := .throw er) (by simp [DictStep, hr]) ?_
      simp only [Target.dictOp, PyAttrs.setItem, FsM.bind_run, hc]
    | none =>
      rw [hr] at hc
      obtain ⟨σ', e, ho, hd, _⟩ := hc
      have hrun : t.dictOp fuel (.setItem k v) σ = (.ok .none, σ') := by
        simp only [Target.dictOp, PyAttrs.setItem, FsM.bind_run, e]; rfl
      rw [hrun]
      refine ⟨?_, ho⟩
      simp only [DictStep, hr, true_and]
      exact hd.trans (setItem_apply k v _)
  | delItem k =>
    have hc := change_dict h (op := .remove k) trivial
    have hkeys : (AttrOp.remove k).keys = [k] := rfl
    rw [hkeys] at hc
    cases hr : (t.rules L).refusal [k] with
    | some er =>
      rw [hr] at hc
      have hc : t.change (.remove k) σ = (.throw er, σ) := hc
      refine hstay (r := .throw er) (by simp [DictStep, hr]) ?_
      simp only [Target.dictOp, PyAttrs.delItem, FsM.bind_run, hc]
    | none =>
      rw [hr] at hc
      obtain ⟨σ', e, ho, hd, _⟩ := hc
      have hrun : t.dictOp fuel (.delItem k) σ = (.ok .none, σ') := by
        simp only [Target.dictOp, PyAttrs.delItem, FsM.bind_run, e]; rfl
      rw [hrun]
      refine ⟨?_, ho⟩
      simp only [DictStep, hr, true_and]
      exact hd
  | update l =>
    have hv : (l.map Prod.fst).Nodup := hv
    have hc := change_dict h (op := .write (.obj l)) ⟨l, rfl, hv⟩
    have hkeys : (AttrOp.write (.obj l)).keys = l.map Prod.fst := rfl
    rw [hkeys] at hc
    cases hr : (t.rules L).refusal (l.map Prod.fst) with
    | some er =>
      rw [hr] at hc
      have hc : t.change (.write (.obj l)) σ = (.throw er, σ) := hc
      refine hstay (r := .throw er) (by simp [DictStep, hr]) ?_
      simp only [Target.dictOp, PyAttrs.update, FsM.bind_run, hc]
    | none =>
      rw [hr] at hc
      obtain ⟨σ', e, ho, hd, _⟩ := hc
      have hrun : t.dictOp fuel (.update l) σ = (.ok .none, σ') := by
        simp only [Target.dictOp, PyAttrs.update, FsM.bind_run, e]; rfl
      rw [hrun]
      refine ⟨?_, ho⟩
      simp only [DictStep, hr, true_and]
      refine ⟨fun k v hm => ?_, fun k hk => ?_⟩
      · rw [hd]
        have : (Json.obj l).find k = some v := assocGet_of_mem hv hm
        simp only [AttrOp.apply, this]
      · rw [hd]
        exact apply_other (op := .write (.obj l)) ⟨l, rfl, hv⟩ hk _
  | pop k d =>
    cases hk : t.dict L σ k with
    | none =>
      cases d with
      | none =>
        refine hstay (r := .throw .keyError) (by simp [DictStep, hk]) ?_
        simp only [Target.dictOp, PyAttrs.pop, FsM.bind_run, catchKey_getItem h, hk]
        rfl
      | some d =>
        refine hstay (r := .ok (.value d)) (by simp [DictStep, hk]) ?_
        simp only [Target.dictOp, PyAttrs.pop, FsM.bind_run, catchKey_getItem h, hk]
        rfl
    | some v =>
      have hc := change_dict h (op := .remove k) trivial
      have hkeys : (AttrOp.remove k).keys = [k] := rfl
      rw [hkeys] at hc
      cases hr : (t.rules L).refusal [k] with
      | some er =>
        rw [hr] at hc
        have hc : t.change (.remove k) σ = (.throw er, σ) := hc
        refine hstay (r := .throw er) (by simp [DictStep, hk, hr]) ?_
        simp only [Target.dictOp, PyAttrs.pop, PyAttrs.delItem, FsM.bind_run, catchKey_getItem h, hk, hc]
      | none =>
        rw [hr] at hc
        obtain ⟨σ', e, ho, hd, _⟩ := hc
        have hrun : t.dictOp fuel (.pop k d) σ = (.ok (.value v), σ') := by
          simp only [Target.dictOp, PyAttrs.pop, PyAttrs.delItem, FsM.bind_run, catchKey_getItem h, hk, e]; rfl
        rw [hrun]
        refine ⟨?_, ho⟩
        simp only [DictStep, hk, hr, true_and]
        exact hd
  | popItem =>
    obtain ⟨l, hl, hrun⟩ := popItem_run h
    cases l with
    | nil =>
      have hrun : PyAttrs.popItem t σ = (.throw .keyError, σ) := hrun
      refine hstay (r := .throw .keyError) (.inl ⟨lists_nil.1 hl, rfl, rfl⟩) ?_
      simp only [Target.dictOp, FsM.bind_run, hrun]
    | cons x l =>
      obtain ⟨k, v⟩ := x
      have hk : t.dict L σ k = some v := (hl.2 k v).1 List.mem_cons_self
      have hrun : match (t.rules L).refusal [k] with
        | some e => PyAttrs.popItem t σ = (.throw e, σ)
        | none => ∃ σ', PyAttrs.popItem t σ = (.ok (k, v), σ') ∧ t.OnlyDict L σ σ' ∧
          t.dict L σ' = (fun i => if i = k then none else t.dict L σ i) ∧ (t.dict L σ').Lists l := hrun
      cases hr : (t.rules L).refusal [k] with
      | some er =>
        rw [hr] at hrun
        have hrun : PyAttrs.popItem t σ = (.throw er, σ) := hrun
        refine hstay (r := .throw er) (.inr ⟨k, v, hk, by rw [hr]; exact ⟨rfl, rfl⟩⟩) ?_
        simp only [Target.dictOp, FsM.bind_run, hrun]
      | none =>
        rw [hr] at hrun
        obtain ⟨σ', e, ho, hd, _⟩ := hrun
        have hrun : t.dictOp fuel .popItem σ = (.ok (.item k v), σ') := by
          simp only [Target.dictOp, FsM.bind_run, e]; rfl
        rw [hrun]
        exact ⟨.inr ⟨k, v, hk, by rw [hr]; exact ⟨rfl, hd⟩⟩, ho⟩
  | setDefault k d =>
    cases hk : t.dict L σ k with
    | some v =>
      refine hstay (r := .ok (.value v)) (by simp [DictStep, hk]) ?_
      simp only [Target.dictOp, PyAttrs.setDefault, FsM.bind_run, catchKey_getItem h, hk]
      rfl
    | none =>
      have hc := change_dict h (setItem_valid k d)
      have hkeys : (AttrOp.write (.obj [(k, d)])).keys = [k] := rfl
      rw [hkeys] at hc
      cases hr : (t.rules L).refusal [k] with
      | some er =>
        rw [hr] at hc
        have hc : t.change (.write (.obj [(k, d)])) σ = (.throw er, σ) := hc
        refine hstay (r := .throw er) (by simp [DictStep, hk, hr]) ?_
        simp only [Target.dictOp, PyAttrs.setDefault, PyAttrs.setItem, FsM.bind_run, catchKey_getItem h, hk, hc]
      | none =>
        rw [hr] at hc
        obtain ⟨σ', e, ho, hd, _⟩ := hc
        have hrun : t.dictOp fuel (.setDefault k d) σ = (.ok (.value d), σ') := by
          simp only [Target.dictOp, PyAttrs.setDefault, PyAttrs.setItem, FsM.bind_run, catchKey_getItem h, hk, e]
          rfl
        rw [hrun]
        refine ⟨?_, ho⟩
        simp only [DictStep, hk, hr, true_and]
        exact hd.trans (setItem_apply k d _)
  | clear =>
    obtain ⟨r, σ', e, ho, hc⟩ := clear_run h hf
    have hrun : t.dictOp fuel .clear σ = (match r with
        | .ok _ => .ok .none
        | .throw e => .throw e
        | .ub => .ub, σ') := by
      simp only [Target.dictOp, FsM.bind_run, e]
      cases r <;> rfl
    rw [hrun]
    refine ⟨?_, ho⟩
    rcases hc with ⟨c1, rfl, c3⟩ | ⟨c1, c2, rfl, c4⟩ | ⟨c1, c2, rfl, c4⟩ | ⟨c1, c2, rfl, c4, c5⟩
    · exact .inl ⟨c1, rfl, c3⟩
    · exact .inr (.inl ⟨c1, c2, rfl, c4⟩)
    · exact .inr (.inr (.inl ⟨c1, c2, rfl, c4⟩))
    · exact .inr (.inr (.inr ⟨c1, c2, rfl, c4, c5⟩))

/-- What a history of operations leaves behind, with what each of them returned -/
def runDict (t : Target) : List (Nat × DictOp) → Fs → List (DictOp × Res DictOut) × Fs
  | [], σ => ([], σ)
  | (fuel, op) :: ops, σ =>
    let x := t.dictOp fuel op σ
    let y := runDict t ops x.2
    ((op, x.1) :: y.1, y.2)

/-- The bound on the passes of each `clear` is larger than the number of attributes there are. -/
def Enough (t : Target) (L : Layout) : List (Nat × DictOp) → Fs → Prop
  | [], _ => True
  | (fuel, op) :: ops, σ => (∀ l, (t.dict L σ).Lists l → l.length < fuel) ∧ Enough t L ops (t.dictOp fuel op σ).2

/-- **C67.**  Any history of operations on `.attrs` returns, one by one, what the same operations on a `dict`
    with the same contents would return, and leaves the same contents; nothing else is changed. -/
theorem c67_history : ∀ {ops : List (Nat × DictOp)} {σ : Fs}, t.Refers σ L → (∀ x ∈ ops, x.2.Valid) →
    Enough t L ops σ →
    DictRun (t.rules L) (t.dict L σ) (runDict t ops σ).1 (t.dict L (runDict t ops σ).2) ∧
    t.OnlyDict L σ (runDict t ops σ).2
  | [], _, h, _, _ => ⟨.nil, .refl h⟩
  | (fuel, op) :: ops, σ, h, hv, hf => by
    obtain ⟨h1, h2⟩ := c67_step h (hv _ List.mem_cons_self) hf.1
    obtain ⟨h3, h4⟩ := c67_history (ops := ops) h2.2.1 (fun x hx => hv x (List.mem_cons_of_mem _ hx)) hf.2
    exact ⟨.cons h1 h3, h2.trans h4⟩

/-- There always is such a bound. -/
theorem c67_enough : ∀ {ops : List DictOp} {σ : Fs}, t.Refers σ L → (∀ op ∈ ops, op.Valid) →
    ∃ l : List (Nat × DictOp), l.map Prod.snd = ops ∧ Enough t L l σ
  | [], _, _, _ => ⟨[], rfl, trivial⟩
  | op :: ops, σ, h, hv => by
    obtain ⟨l, _, hl, _⟩ := readDict_ok h
    have hf : ∀ l', (t.dict L σ).Lists l' → l'.length < l.length + 1 := fun l' hl' => by
      rw [lists_length hl' hl]; omega
    obtain ⟨_, h2⟩ := c67_step h (hv _ List.mem_cons_self) hf
    obtain ⟨ls, h3, h4⟩ := c67_enough (ops := ops) h2.2.1 (fun x hx => hv x (List.mem_cons_of_mem _ hx))
    exact ⟨(l.length + 1, op) :: ls, by rw [List.map_cons, h3], hf, h4⟩

/-! ### Concrete -/

/-- The hypotheses of `c67_step` and `c67_history` are met, and the results are those of a dict: on the N5
    dataset `exN5` with the attribute `name`. -/
example :
    let t := Target.dataset ⟨["d"], .a, ".", 2, "default", none⟩
    ∃ ops : List (Nat × DictOp), ops.map Prod.snd = [.setItem "a" (.int 1), .pop "name" none, .popItem, .clear] ∧
      t.Refers exN5 .n5 ∧ (∀ x ∈ ops, x.2.Valid) ∧ Enough t .n5 ops exN5 := by
  intro t
  have hv : ∀ op ∈ [DictOp.setItem "a" (.int 1), .pop "name" none, .popItem, .clear], op.Valid := by
    intro x hx
    simp only [List.mem_cons, List.not_mem_nil, or_false] at hx
    rcases hx with rfl | rfl | rfl | rfl <;> trivial
  obtain ⟨ops, ho, he⟩ := c67_enough exN5_dataset hv
  exact ⟨ops, ho, exN5_dataset, fun x hx => hv _ (by rw [← ho]; exact List.mem_map_of_mem hx), he⟩

example :
    let t := Target.dataset ⟨["d"], .a, ".", 2, "default", none⟩
    (t.dictOp 9 (.getItem "name") exN5).1 = .ok (.value (.str "x")) ∧
    (t.dictOp 9 (.getItem "dimensions") exN5).1 = .throw .keyError ∧
    (t.dictOp 9 .len exN5).1 = .ok (.nat 1) ∧
    (t.dictOp 9 (.setItem "dimensions" .null) exN5).1 = .throw .runtimeError ∧
    (t.dictOp 9 (.pop "name" none) exN5).1 = .ok (.value (.str "x")) := by
  refine ⟨?_, ?_, ?_, ?_, ?_⟩
  · rfl
  · rfl
  · rfl
  · rfl
  · rfl

/-- **C67, deviation from a dict.**  `del` of an attribute that does not exist does not raise. -/
theorem c67_del_missing_counterexample : ∃ (t : Target) (σ σ' : Fs) (L : Layout) (k : String),
    t.Refers σ L ∧ t.dict L σ k = none ∧ PyAttrs.delItem t k σ = (.ok (), σ') := by
  obtain ⟨σ', e, _⟩ := (c29_change (op := .remove "missing") (by decide) exN5_dataset trivial).2 (by decide)
  exact ⟨_, exN5, σ', .n5, "missing", exN5_dataset, rfl, e⟩

/-- **C67, deviation from a dict.**  `clear` of the attributes of an N5 file always raises. -/
theorem c67_clear_n5_file {g : GroupHandle} {σ : Fs} (hw : g.mode.canWrite = true)
    (h : (Target.file g).Refers σ .n5) (hn : σ.attributes g.path .n5 "n5" ≠ none) {fuel : Nat}
    (hf : ∀ l, ((Target.file g).dict .n5 σ).Lists l → l.length < fuel) :
    (PyAttrs.clear (.file g) fuel σ).1 = .throw .runtimeError := by
  have hn : (Target.file g).dict .n5 σ "n5" ≠ none := hn
  obtain ⟨r, σ', e, _, hc⟩ := clear_run h hf
  rw [e]
  rcases hc with ⟨c1, _⟩ | ⟨_, c2, _⟩ | ⟨_, c2, _⟩ | ⟨_, _, c3, _⟩
  · exact absurd (c1 "n5") hn
  · have hw : (Target.file g).mode.canWrite = true := hw
    rw [hw] at c2; cases c2
  · exact absurd (c2 "n5" (List.mem_cons_self)) hn
  · exact c3

/-- a new N5 file with one attribute -/
def exN5File : Fs := fun p =>
  if p = [] then some .dir
  else if p = ["attributes.json"] then some (.doc (.obj [("a", .int 1), ("n5", .str "2.0.0")]))
  else none

theorem exN5File_refers : (Target.file ⟨[], .a⟩).Refers exN5File .n5 where
  node := ⟨rfl, .inr ⟨_, rfl, _, rfl, by decide⟩, (fun e => by cases e), (fun e => by cases e)⟩
  zarr := (group_isZarr _ _).trans rfl
  dataset := fun d e => by cases e

/-- The hypotheses of `c67_clear_n5_file` are met. -/
example : ∃ fuel, (PyAttrs.clear (.file ⟨[], .a⟩) fuel exN5File).1 = .throw .runtimeError := by
  obtain ⟨l, _, hl, _⟩ := readDict_ok exN5File_refers
  exact ⟨l.length + 1, c67_clear_n5_file rfl exN5File_refers (by decide)
    fun l' hl' => by rw [lists_length hl' hl]; omega⟩

end Z5.Props
