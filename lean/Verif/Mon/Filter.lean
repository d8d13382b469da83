/-!
# The monitoring topic filter

Code modelled: `/repo/ecal/core/src/monitoring/ecal_monitoring_impl.cpp` L42-69 (`Create`: configured strings,
then `SetFilterState(true)`), L81-118 (`SetExclFilter`, `SetInclFilter`, `SetFilterState`), L217-243 (the
decision in `RegisterTopic`), L771-797 (`Tokenize`); `ecal_monitoring_impl.h` L128-139 (the pattern sets are
ordered without regard to case).

Strings are lists of characters.  Regular expression matching is a parameter
`M : pattern → topic → Option Bool` (`none`: the pattern is malformed and `std::regex` throws).  A set is a
list in insertion order in which no two elements are equal up to case; the code visits it in sorted order,
which matters only for which malformed pattern is met first.
-/

namespace Ecal.Mon.Filter

/-- `strcasecmp`. -/
def lower (s : List Char) : List Char := s.map Char.toLower

def sameCI (a b : List Char) : Bool := lower a == lower b

/-- `std::set::emplace`: nothing happens if an equivalent element is there. -/
def insertCI (s : List (List Char)) (t : List Char) : List (List Char) :=
  if s.any (sameCI t) then s else s ++ [t]

def isDelim (c : Char) : Bool := c == ',' || c == ';'

/-- `Tokenize` L771-797 with `trimEmpty`: `cur` is the text since the last delimiter. -/
def scan (cur : List Char) : List Char → List (List Char)
  | [] => if cur = [] then [] else [cur]
  | c :: r =>
    if isDelim c then (if cur = [] then scan [] r else cur :: scan [] r)
    else scan (cur ++ [c]) r

def tokenizeInto (s : List (List Char)) (str : List Char) : List (List Char) :=
  (scan [] str).foldl insertCI s

structure State where
  exclS : List Char := []
  inclS : List Char := []
  excl  : List (List Char) := []
  incl  : List (List Char) := []
deriving DecidableEq, Repr

inductive Op where
  | setExcl (s : List Char)
  | setIncl (s : List Char)
  | setState (on : Bool)
deriving DecidableEq, Repr

/-- L81-118. -/
def step (s : State) : Op → State
  | .setExcl f => { s with exclS := f }
  | .setIncl f => { s with inclS := f }
  | .setState true =>
    { s with excl := tokenizeInto s.excl s.exclS, incl := tokenizeInto s.incl s.inclS }
  | .setState false => { s with excl := [], incl := [] }

def run : State → List Op → State
  | s, [] => s
  | s, o :: os => run (step s o) os

/-- Does some pattern match?  Patterns are compiled and tried one after the other until one matches. -/
def anyMatch (M : List Char → List Char → Option Bool) (topic : List Char) :
    List (List Char) → Option Bool
  | [] => some false
  | p :: ps => match M p topic with
    | none => none
    | some true => some true
    | some false => anyMatch M topic ps

/-- L217-243: is the topic entered into the monitoring table?  `none`: an exception leaves the callback. -/
def shown (M : List Char → List Char → Option Bool) (s : State) (topic : List Char) : Option Bool :=
  match anyMatch M topic s.excl with
  | none => none
  | some true => some false
  | some false => if s.incl = [] then some true else anyMatch M topic s.incl

end Ecal.Mon.Filter
