import Verif.Spec.Attributes

/-!
# `AttributeManager` of z5py

`src/python/module/z5py/attribute_manager.py`: a `MutableMapping` over the attributes of a file, group or
dataset.  `__getitem__`, `__setitem__`, `__delitem__`, `update`, `__iter__` and `__len__` are those of the
file; the others (`get`, `__contains__`, `items`, `pop`, `popitem`, `clear`, `setdefault`) are the mixin
methods of Python's `collections.abc`, written here after their documentation.

The JSON text that passes between Python and C++ (`json.dumps`, `nlohmann::json::parse`, `json::dump`,
`json.loads`) is not modelled: a value is its JSON value.  In particular keys are strings, and a value that
JSON cannot express is outside the model.
-/

namespace Z5

/-- `try: … except KeyError:` -/
def FsM.catchKey {α : Type} (m : FsM α) : FsM (Option α) := fun σ =>
  match m σ with
  | (.ok a, σ') => (.ok (some a), σ')
  | (.throw .keyError, σ') => (.ok none, σ')
  | (.throw e, σ') => (.throw e, σ')
  | (.ub, σ') => (.ub, σ')

namespace PyAttrs

/-- attribute_manager.py:104-109 `_read_attributes`; the C++ side is src/python/lib/attributes.cxx:22-26 -/
def readDict (t : Target) : FsM Json := do
  match ← t.read with
  | .null => return .obj []
  | j => return j

/-- `attributes[key]`, attribute_manager.py:83-85 -/
def getItem (t : Target) (key : String) : FsM Json := do
  match ← readDict t with
  | .obj l => match assocGet l key with
    | some v => return v
    | none => FsM.lift (.throw .keyError)
  | _ => FsM.lift (.throw .typeError)

/-- attribute_manager.py:87-88, src/python/lib/attributes.cxx:17-20 -/
def setItem (t : Target) (key : String) (item : Json) : FsM Unit :=
  t.change (.write (.obj [(key, item)]))

/-- attribute_manager.py:90-91, src/python/lib/attributes.cxx:28-30 -/
def delItem (t : Target) (key : String) : FsM Unit := t.change (.remove key)

/-- attribute_manager.py:93-99; `items` is `dict(*args, **kwargs)` -/
def update (t : Target) (items : List (String × Json)) : FsM Unit := t.change (.write (.obj items))

/-- attribute_manager.py:115-117 `iter(attributes)`, all of it -/
def iter (t : Target) : FsM (List String) := do
  match ← readDict t with
  | .obj l => return l.map Prod.fst
  | _ => FsM.lift (.throw .typeError)

/-- attribute_manager.py:119-121 -/
def len (t : Target) : FsM Nat := do
  match ← readDict t with
  | .obj l => return l.length
  | _ => FsM.lift (.throw .typeError)

/-- `Mapping.get`: `try: return self[key] except KeyError: return default` -/
def get (t : Target) (key : String) (default : Json) : FsM Json := do
  return (← (getItem t key).catchKey).getD default

/-- `Mapping.__contains__`: `try: self[key] except KeyError: return False else: return True` -/
def contains (t : Target) (key : String) : FsM Bool := do
  return (← (getItem t key).catchKey).isSome

/-- `for key in self: yield (key, self[key])` over a list of keys -/
def itemsOf (t : Target) : List String → FsM (List (String × Json))
  | [] => return []
  | k :: ks => do
    let v ← getItem t k
    return (k, v) :: (← itemsOf t ks)

/-- `list(self.items())` -/
def items (t : Target) : FsM (List (String × Json)) := do itemsOf t (← iter t)

/-- `MutableMapping.pop`: the value; with no default a missing key is a `KeyError` -/
def pop (t : Target) (key : String) (default : Option Json) : FsM Json := do
  match ← (getItem t key).catchKey with
  | none => match default with
    | some d => return d
    | none => FsM.lift (.throw .keyError)
  | some v =>
    delItem t key
    return v

/-- `MutableMapping.popitem`: `try: key = next(iter(self)) except StopIteration: raise KeyError`, then
    `value = self[key]; del self[key]; return key, value` -/
def popItem (t : Target) : FsM (String × Json) := do
  match ← iter t with
  | [] => FsM.lift (.throw .keyError)
  | k :: _ =>
    let v ← getItem t k
    delItem t k
    return (k, v)

/-- `MutableMapping.setdefault` -/
def setDefault (t : Target) (key : String) (default : Json) : FsM Json := do
  match ← (getItem t key).catchKey with
  | some v => return v
  | none =>
    setItem t key default
    return default

/-- `MutableMapping.clear`: `try: while True: self.popitem() except KeyError: pass`.  The loop of at most
    `fuel` passes; the theorems hold for any number that is larger than the number of attributes. -/
def clear (t : Target) : Nat → FsM Unit
  | 0 => return ()
  | fuel + 1 => do
    match ← (popItem t).catchKey with
    | none => return ()
    | some _ => clear t fuel

end PyAttrs

end Z5
