import Verif.Text.Split

/-!
# Text helpers: replacing, trimming, centring, escaping, comparing

Code modelled: `/repo/lib/ecal_utils/include/ecal_utils/string.h`: `Replace` L32-53, `Icharcompare` L55-58,
`Icompare` L60-64, `FindCaseInsensitive` L66-79, `Trim` L216-222, `CenterString` L239-250, `htmlEscape`
L252-267.

Simplifications: memory is unlimited (with an empty pattern and a non-empty replacement `Replace` really
ends with `bad_alloc`); `FindCaseInsensitive` gives the index instead of an iterator (for a container
whose `iterator` differs from its `const_iterator` it does not even compile, L69).
-/

namespace Ecal.Text

inductive Result (α : Type) where
  | value (a : α)
  | thrown                 -- `std::out_of_range`
  | diverges               -- the loop never ends
  | ub
deriving DecidableEq, Repr

/-- The loop of `Replace` (L40-50): `k` characters of the last occurrence are still to be left out. -/
def replaceGo (pat to : Str) : Nat → Str → Str
  | _, [] => []
  | k + 1, _ :: r => replaceGo pat to k r
  | 0, c :: r =>
    if pat.isPrefixOf (c :: r) then to ++ replaceGo pat to (pat.length - 1) r
    else c :: replaceGo pat to 0 r

/-- `Replace` (L34-53; L39, L49 throw for a start behind the end): an empty pattern is found again and again at the same place. -/
def replace (str pat to : Str) (start : Nat) : Result Str :=
  if str.length < start then .thrown
  else if pat = [] then .diverges
  else .value (str.take start ++ replaceGo pat to 0 (str.drop start))

/-- `Trim` (L216-222). -/
def trim (s : Str) : Str := ((s.dropWhile isSpace).reverse.dropWhile isSpace).reverse

/-- `CenterString` (L239-250): the new text and the result. -/
def center (str : Str) (pad : UInt8) (max : Nat) : Str × Bool :=
  if max ≤ str.length then (str, false)
  else
    let space := max - str.length
    let left := space / 2
    (List.replicate left pad ++ str ++ List.replicate (space - left) pad, true)

/-- One character of `htmlEscape` (L257-264). -/
def htmlChar (c : UInt8) : Str :=
  if c = 38 then [38, 97, 109, 112, 59]                 -- &amp;
  else if c = 34 then [38, 113, 117, 111, 116, 59]      -- &quot;
  else if c = 39 then [38, 97, 112, 111, 115, 59]       -- &apos;
  else if c = 60 then [38, 108, 116, 59]                -- &lt;
  else if c = 62 then [38, 103, 116, 59]                -- &gt;
  else [c]

/-- `htmlEscape` (L252-267). -/
def htmlEscape (s : Str) : Str := s.flatMap htmlChar

/-- `toupper` (L57) in the "C" locale for the value of a (signed) `char`: outside the characters 0…127 and the
value -1 the argument is not representable as `unsigned char`: undefined. -/
def toUpper (c : UInt8) : Option UInt8 :=
  if c < 128 ∨ c = 255 then some (if 97 ≤ c ∧ c ≤ 122 then c - 32 else c) else none

/-- `Icharcompare` (L55-58). -/
def icharEq (a b : UInt8) : Option Bool :=
  match toUpper a, toUpper b with
  | some x, some y => some (x == y)
  | _, _ => none

/-- `std::equal` (L63) over two texts of the same length. -/
def equalGo : Str → Str → Option Bool
  | a :: r, b :: r' =>
    match icharEq a b with
    | none => none
    | some false => some false
    | some true => equalGo r r'
  | _, _ => some true

/-- `Icompare` (L60-64). -/
def icompare (s t : Str) : Option Bool :=
  if s.length = t.length then equalGo s t else some false

/-- `FindCaseInsensitive` (L66-79): the position, the length of the list for "not found". -/
def findCI (v : Str) : List Str → Option Nat
  | [] => some 0
  | s :: r =>
    match icompare s v with
    | none => none
    | some true => some 0
    | some false => (findCI v r).map (· + 1)

end Ecal.Text
