import Verif.Model.Double

/-!
# JSON values and the `nlohmann::json` operations that the code uses

Values, not texts: that `parse` undoes `dump` for values without NaN and infinite numbers is C80
(`Model/JsonText`).  `nlohmann` keeps objects in a `std::map`, here they are association lists, looked at only
through lookup by key and iteration.
-/

namespace Z5

inductive Json where
  | null
  | bool (b : Bool)
  /-- `number_integer` and `number_unsigned` -/
  | int (i : Int)
  /-- `number_float` -/
  | float (d : Dbl)
  | str (s : String)
  | arr (l : List Json)
  | obj (l : List (String × Json))
  deriving Inhabited

/-- `std::map::find` -/
def assocGet {β : Type} : List (String × β) → String → Option β
  | [], _ => none
  | (a, b) :: l, k => if a = k then some b else assocGet l k

/-- `map[k] = v` -/
def assocSet {β : Type} : List (String × β) → String → β → List (String × β)
  | [], k, v => [(k, v)]
  | (a, b) :: l, k, v => if a = k then (a, v) :: l else (a, b) :: assocSet l k v

/-- `map.erase(k)` -/
def assocErase {β : Type} (l : List (String × β)) (k : String) : List (String × β) :=
  l.filter fun p => !decide (p.1 = k)

namespace Json

/-- `j.find(k)` (`end()` for values that are not objects), `j.contains(k)` -/
def find : Json → String → Option Json
  | obj l, k => assocGet l k
  | _, _ => none

/-- `j[k]` on a `const json`: a type error unless `j` is an object, undefined if the key is missing. -/
def sub : Json → String → Res Json
  | obj l, k => match assocGet l k with
    | some v => .ok v
    | none => .ub
  | _, _ => .throw .typeError

/-- `j.at(k)`: `type_error` or `out_of_range` -/
def at' : Json → String → Res Json
  | obj l, k => match assocGet l k with
    | some v => .ok v
    | none => .throw .outOfRange
  | _, _ => .throw .typeError

/-- `j[k] = v` on a value that is not `const`: `null` becomes an object. -/
def set : Json → String → Json → Res Json
  | null, k, v => .ok (obj [(k, v)])
  | obj l, k, v => .ok (obj (assocSet l k v))
  | _, _, _ => .throw .typeError

/-- `j.erase(k)` -/
def erase : Json → String → Res Json
  | obj l, k => .ok (obj (assocErase l k))
  | _, _ => .throw .typeError

/-- the values met by `for(it = j.begin(); it != j.end(); ++it)` -/
def elems : Json → List Json
  | null => []
  | arr l => l
  | obj l => l.map (·.2)
  | j => [j]

/-- The same loop using `it.key()`: only objects have keys. -/
def items : Json → Res (List (String × Json))
  | null => .ok []
  | obj l => .ok l
  | arr [] => .ok []
  | _ => .throw .typeError

/-- `j.size()` -/
def size : Json → Nat
  | null => 0
  | arr l => l.length
  | obj l => l.length
  | _ => 1

def isNull : Json → Bool
  | null => true
  | _ => false

/-- `j == "..."` -/
def eqStr : Json → String → Bool
  | str s, t => decide (s = t)
  | _, _ => false

/-- `j == n` for an `int` -/
def eqInt : Json → Int → Bool
  | int i, n => decide (i = n)
  | float d, n => decide (d = Dbl.ofInt n)
  | _, _ => false

/-- `get<std::string>()` -/
def getStr : Json → Res String
  | str s => .ok s
  | _ => .throw .typeError

/-- `get<int>()`: integers are reduced modulo 2^32. -/
def getInt : Json → Res Int
  | int i => .ok (Int.bmod i (2 ^ 32))
  | float d => d.toInt (-2 ^ 31) (2 ^ 31)
  | bool b => .ok (if b then 1 else 0)
  | _ => .throw .typeError

/-- `get<std::size_t>()`: integers are reduced modulo 2^64; booleans are rejected. -/
def getSize : Json → Res Nat
  | int i => .ok (i % 2 ^ 64).toNat
  | float d => do return (← d.toInt 0 (2 ^ 64)).toNat
  | _ => .throw .typeError

/-- `get<double>()` -/
def getDouble : Json → Res Dbl
  | int i => .ok (Dbl.ofInt i)
  | float d => .ok d
  | _ => .throw .typeError

/-- `j.value(k, default)` for strings -/
def valueStr (j : Json) (k : String) (dflt : String) : Res String :=
  match j with
  | obj l => match assocGet l k with
    | some v => v.getStr
    | none => .ok dflt
  | _ => .throw .typeError

/-- `j.value(k, default)` for `int` -/
def valueInt (j : Json) (k : String) (dflt : Int) : Res Int :=
  match j with
  | obj l => match assocGet l k with
    | some v => v.getInt
    | none => .ok dflt
  | _ => .throw .typeError

/-- constructing a `ShapeType` from the range of elements -/
def sizes : List Json → Res (List Nat)
  | [] => .ok []
  | j :: l => do
    let n ← j.getSize
    let r ← sizes l
    return n :: r

/-- `json(ShapeType)` -/
def ofShape (s : List Nat) : Json := arr (s.map fun (n : Nat) => int (n : Int))

end Json

end Z5
