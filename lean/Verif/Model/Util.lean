import Verif.Basic

/-!
# Model of `util/util.hxx`

`std::string` is modelled as `List Char`; `types::ShapeType` (`std::vector<std::size_t>`) as
`List Nat`.
-/

namespace Z5

/-- `std::to_string(std::size_t)`: the decimal digits (used by util/util.hxx:16 and
    handle.hxx:201). -/
def toStr (n : Nat) : List Char := Nat.toDigits 10 n

/-- util/util.hxx:11-18 `join`: the loop, with the string built so far as accumulator.
    The delimiter is appended whenever `out` is non-empty. -/
def joinLoop (delim : List Char) : List Nat → List Char → List Char
  | [], out => out
  | n :: ns, out => joinLoop delim ns ((if out = [] then out else out ++ delim) ++ toStr n)

/-- util/util.hxx:11-18 `join`, called with an empty `out` (handle.hxx:193,206,214). -/
def join (idx : List Nat) (delim : List Char) : List Char := joinLoop delim idx []

/-- `in.find(delim, prev)` relative to the suffix starting at `prev` (util/util.hxx:23,29):
    the position of the first occurrence of `delim`, if any. -/
def findStr (delim : List Char) : List Char → Option Nat
  | [] => if delim = [] then some 0 else none
  | c :: cs => if delim.isPrefixOf (c :: cs) then some 0 else (findStr delim cs).map (· + 1)

/-- util/util.hxx:21-32 `split`: tokens between successive occurrences of `delim`.
    `fuel` bounds the number of loop iterations; `none` stands for a loop that does not end
    (it never ends for an empty delimiter, because `prev` never advances). -/
def splitLoop (delim : List Char) : Nat → List Char → Option (List (List Char))
  | 0, _ => none
  | fuel + 1, s =>
    match findStr delim s with
    | none => some [s]
    | some i => (splitLoop delim fuel (s.drop (i + delim.length))).map (s.take i :: ·)

/-- util/util.hxx:21-32 `split` with an empty `out`.  Each iteration with a non-empty delimiter
    consumes at least one character, so `length + 1` iterations are enough. -/
def split (s delim : List Char) : Option (List (List Char)) := splitLoop delim (s.length + 1) s

/-- util/util.hxx:49-60, the inner `for` loop of `makeRegularGrid`: from the last axis to the
    first, increment the position; stop (`true`) at the first axis that is still `≤ max`,
    otherwise reset that axis.  `false`: all axes wrapped (`d` became -1). -/
def gridBump : List Nat → List Nat → List Nat → List Nat × Bool
  | mn :: mns, mx :: mxs, p :: ps =>
    let r := gridBump mns mxs ps
    if r.2 then (p :: r.1, true)
    else if wadd p 1 ≤ mx then (wadd p 1 :: r.1, true)
    else (mn :: r.1, false)
  | _, _, _ => ([], false)

/-- util/util.hxx:45-61, the outer loop of `makeRegularGrid`; `none` if `fuel` iterations do
    not finish it. -/
def gridLoop (mins maxs : List Nat) : Nat → List Nat → Option (List (List Nat))
  | 0, _ => none
  | fuel + 1, pos =>
    let r := gridBump mins maxs pos
    if r.2 then (gridLoop mins maxs fuel r.1).map (pos :: ·) else some [pos]

/-- number of iterations that `gridLoop` needs when `min ≤ max` in every axis -/
def gridFuel : List Nat → List Nat → Nat
  | mn :: mns, mx :: mxs => (mx - mn + 1) * gridFuel mns mxs
  | _, _ => 1

/-- util/util.hxx:36-62 `makeRegularGrid` with an empty `grid`.  Zero axes: the outer loop is not
    entered.  A shorter `maxCoords` would be read out of bounds. -/
def makeRegularGrid (mins maxs : List Nat) : Res (List (List Nat)) :=
  if maxs.length < mins.length then .ub
  else if mins = [] then .ok []
  else match gridLoop mins maxs (gridFuel mins maxs) mins with
    | some l => .ok l
    | none => .throw .lengthError

end Z5
