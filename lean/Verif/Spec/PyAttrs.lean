import Verif.Model.PyAttrs

/-!
# Vocabulary for C67: a `dict` with locked keys

What an operation of a Python `dict` returns and leaves behind, when some keys may not be changed and the
whole may be read-only.  Nothing here mentions files.
-/

namespace Z5

/-- An operation on a mapping -/
inductive DictOp where
  | getItem (key : String)
  | get (key : String) (default : Json)
  | contains (key : String)
  | iter
  | len
  | items
  | setItem (key : String) (value : Json)
  | delItem (key : String)
  | update (items : List (String × Json))
  | pop (key : String) (default : Option Json)
  | popItem
  | setDefault (key : String) (default : Json)
  | clear

/-- What is given to `update` is a dict: its keys are different. -/
def DictOp.Valid : DictOp → Prop
  | .update l => (l.map Prod.fst).Nodup
  | _ => True

/-- What an operation returns -/
inductive DictOut where
  | none
  | value (v : Json)
  | bool (b : Bool)
  | keys (l : List String)
  | nat (n : Nat)
  | items (l : List (String × Json))
  | item (key : String) (value : Json)

/-- May it be changed at all, and which keys may not -/
structure DictRules where
  writable : Bool
  locked : List String

/-- Why a change of these keys is refused, if it is -/
def DictRules.refusal (R : DictRules) (keys : List String) : Option Err :=
  if R.writable = false then some .invalidArgument
  else if ∃ k ∈ keys, k ∈ R.locked then some .runtimeError
  else none

/-- The mapping has the contents `l`, in some order. -/
def AttrMap.Lists (M : AttrMap) (l : List (String × Json)) : Prop :=
  (l.map Prod.fst).Nodup ∧ ∀ k v, (k, v) ∈ l ↔ M k = some v

/-- What an operation on a mapping with contents `M` may return (`r`) and leave behind (`M'`).  It is that of
    a Python `dict`, but for locked keys, and but for `del` of a key that is missing, which does not raise.
    The order of the keys is not specified. -/
def DictStep (R : DictRules) (M : AttrMap) : DictOp → Res DictOut → AttrMap → Prop
  | .getItem k, r, M' => M' = M ∧ r = match M k with
    | some v => .ok (.value v)
    | none => .throw .keyError
  | .get k d, r, M' => M' = M ∧ r = match M k with
    | some v => .ok (.value v)
    | none => .ok (.value d)
  | .contains k, r, M' => M' = M ∧ r = .ok (.bool (M k).isSome)
  | .iter, r, M' => M' = M ∧ ∃ l, M.Lists l ∧ r = .ok (.keys (l.map Prod.fst))
  | .len, r, M' => M' = M ∧ ∃ l, M.Lists l ∧ r = .ok (.nat l.length)
  | .items, r, M' => M' = M ∧ ∃ l, M.Lists l ∧ r = .ok (.items l)
  | .setItem k v, r, M' => match R.refusal [k] with
    | some e => r = .throw e ∧ M' = M
    | none => r = .ok .none ∧ M' = fun i => if i = k then some v else M i
  | .delItem k, r, M' => match R.refusal [k] with
    | some e => r = .throw e ∧ M' = M
    | none => r = .ok .none ∧ M' = fun i => if i = k then none else M i
  | .update l, r, M' => match R.refusal (l.map Prod.fst) with
    | some e => r = .throw e ∧ M' = M
    | none => r = .ok .none ∧ (∀ k v, (k, v) ∈ l → M' k = some v) ∧ ∀ k, k ∉ l.map Prod.fst → M' k = M k
  | .pop k d, r, M' => match M k with
    | none => M' = M ∧ r = match d with
      | some d => .ok (.value d)
      | none => .throw .keyError
    | some v => match R.refusal [k] with
      | some e => r = .throw e ∧ M' = M
      | none => r = .ok (.value v) ∧ M' = fun i => if i = k then none else M i
  | .popItem, r, M' => ((∀ k, M k = none) ∧ r = .throw .keyError ∧ M' = M) ∨
    ∃ k v, M k = some v ∧ match R.refusal [k] with
      | some e => r = .throw e ∧ M' = M
      | none => r = .ok (.item k v) ∧ M' = fun i => if i = k then none else M i
  | .setDefault k d, r, M' => match M k with
    | some v => r = .ok (.value v) ∧ M' = M
    | none => match R.refusal [k] with
      | some e => r = .throw e ∧ M' = M
      | none => r = .ok (.value d) ∧ M' = fun i => if i = k then some d else M i
  | .clear, r, M' =>
    ((∀ k, M k = none) ∧ r = .ok .none ∧ M' = M) ∨
    ((∃ k, M k ≠ none) ∧ R.writable = false ∧ r = .throw .invalidArgument ∧ M' = M) ∨
    (R.writable = true ∧ (∀ k ∈ R.locked, M k = none) ∧ r = .ok .none ∧ M' = fun _ => none) ∨
    (R.writable = true ∧ (∃ k ∈ R.locked, M k ≠ none) ∧ r = .throw .runtimeError ∧
      (∀ k ∈ R.locked, M' k = M k) ∧ ∀ k, M' k = M k ∨ M' k = none)

/-- Operations one after the other, each with what it returned -/
inductive DictRun (R : DictRules) : AttrMap → List (DictOp × Res DictOut) → AttrMap → Prop
  | nil {M : AttrMap} : DictRun R M [] M
  | cons {M M' M'' : AttrMap} {op : DictOp} {r : Res DictOut} {l : List (DictOp × Res DictOut)} :
    DictStep R M op r M' → DictRun R M' l M'' → DictRun R M ((op, r) :: l) M''

/-- Run one operation on `.attrs` of a file, group or dataset; `clear` makes at most `fuel` passes. -/
def Target.dictOp (t : Target) (fuel : Nat) : DictOp → FsM DictOut
  | .getItem k => do return .value (← PyAttrs.getItem t k)
  | .get k d => do return .value (← PyAttrs.get t k d)
  | .contains k => do return .bool (← PyAttrs.contains t k)
  | .iter => do return .keys (← PyAttrs.iter t)
  | .len => do return .nat (← PyAttrs.len t)
  | .items => do return .items (← PyAttrs.items t)
  | .setItem k v => do PyAttrs.setItem t k v; return .none
  | .delItem k => do PyAttrs.delItem t k; return .none
  | .update l => do PyAttrs.update t l; return .none
  | .pop k d => do return .value (← PyAttrs.pop t k d)
  | .popItem => do let x ← PyAttrs.popItem t; return .item x.1 x.2
  | .setDefault k d => do return .value (← PyAttrs.setDefault t k d)
  | .clear => do PyAttrs.clear t fuel; return .none

/-- The contents of the mapping: the attributes of the node that are shown -/
def Target.dict (t : Target) (L : Layout) (σ : Fs) : AttrMap := t.shown L (σ.attributes t.path L)

/-- The mapping is read-only for mode `r`; the version of an N5 file and the metadata of an N5 dataset are
    locked. -/
def Target.rules (t : Target) (L : Layout) : DictRules := ⟨t.mode.canWrite, t.locked L⟩

/-- From `σ` to `σ'` nothing changed but attributes of the node that are shown: no other file, nothing else
    in `zarr.json`, none of the attributes that are not shown. -/
def Target.OnlyDict (t : Target) (L : Layout) (σ σ' : Fs) : Prop :=
  σ.OnlyAttributes σ' t.path L (σ'.attributes t.path L) ∧ t.Refers σ' L ∧
  ∀ k ∈ t.hidden L, σ'.attributes t.path L k = σ.attributes t.path L k

end Z5
