/-!
# Include filters for the elements of a message

Code modelled: `/repo/ecal/msg/protobuf/src/ecal_proto_message_filter.cpp`: `StartsWith` L31-34, `CreateSet` L46-75,
`BaseIncludeFilter::Clear` L77-81, `Insert` L83-92, `Erase` L95-118, `SimpleIncludeFilter::Filter` L124-128,
`ComplexIncludeFilter::Filter` L135-183 with the regular expression of L131.

Simplifications.
* Names are lists of characters and compared by their codes (`std::set<std::string>` compares bytes).
* The set is a list; its order is only used where the code uses it (the element that follows, L109-110).
* All functions hold the mutex, so each is one step.
* The regular expression `([^\[]+)(?:\[(\d+|\*)\])?` of `std::regex_search` is written as a function: from the first
  character that is no bracket as many as possible that are no bracket, then an index if there is one.
* Advancing and erasing the end iterator (L110, L116) is undefined behaviour: `none`.
-/

namespace Ecal.Proto.Filter

abbrev Str := List Char

/-- `std::getline` with the delimiter `.` until the stream is empty (L52); `cur`: what is read of the current item. -/
def items (cur : Str) : Str → List Str
  | [] => if cur = [] then [] else [cur]
  | c :: r => if c = '.' then cur :: items [] r else items (cur ++ [c]) r

/-- The loop of `CreateSet`, L52-73. -/
def createGo (inc : Str) : List Str → List Str
  | [] => []
  | it :: r =>
    let inc := if inc = [] then inc else inc ++ ['.']
    let extra := if '[' ∈ it then [it.takeWhile (· ≠ '[')] else []
    extra ++ (inc ++ it) :: createGo (inc ++ it) r

/-- `CreateSet`. -/
def createSet (input : Str) : List Str := createGo [] (items [] input)

/-- `Insert`, L83-92. -/
def insert (s : List Str) (x : Str) : List Str := s ++ (createSet x).filter (fun e => !s.contains e)

/-- The order of the set. -/
def less : Str → Str → Bool
  | _, [] => false
  | [], _ :: _ => true
  | a :: x, b :: y => decide (a.toNat < b.toNat) || (a == b && less x y)

/-- `StartsWith`, L31-34. -/
def startsWith (haystack needle : Str) : Bool := needle.isPrefixOf haystack

/-- The smaller of two. -/
def least (a b : Str) : Str := if less b a then b else a

/-- The element that follows `x` in the set, L109-110; `none`: the end. -/
def following (s : List Str) (x : Str) : Option Str :=
  match s.filter (less x) with
  | [] => none
  | a :: r => some (r.foldl least a)

/-- Insertion into a descending list without duplicates. -/
def insertDesc (x : Str) : List Str → List Str
  | [] => [x]
  | y :: r => if less y x then x :: y :: r else if x = y then y :: r else y :: insertDesc x r

/-- The elements of `CreateSet` from the last to the first (L105). -/
def descending (l : List Str) : List Str := l.foldr insertDesc []

/-- The loop of `Erase`, L105-117; `none`: undefined behaviour. -/
def eraseGo (s : List Str) : List Str → Option (List Str)
  | [] => some s
  | id :: r =>
    if id ∈ s then
      match following s id with
      | some f => if startsWith f id then some s else eraseGo (s.filter (· ≠ id)) r
      | none => eraseGo (s.filter (· ≠ id)) r
    else none

/-- `Erase`. -/
def erase (s : List Str) (x : Str) : Option (List Str) := eraseGo s (descending (createSet x))

/-- `SimpleIncludeFilter::Filter`. -/
def simple (s : List Str) (name : Str) : Bool := s.contains name

/-- The optional group of the regular expression: an index in brackets and what follows. -/
def index : Str → Option (Str × Str)
  | '[' :: '*' :: ']' :: r => some (['*'], r)
  | '[' :: r =>
    let ds := r.takeWhile Char.isDigit
    match r.dropWhile Char.isDigit with
    | ']' :: r' => if ds = [] then none else some (ds, r')
    | _ => none
  | _ => none

/-- `std::regex_search` (L150): the first group, the second group if it took part, and the suffix. -/
def search (s : Str) : Option (Str × Option Str × Str) :=
  match s.dropWhile (· = '[') with
  | [] => none
  | t =>
    let name := t.takeWhile (· ≠ '[')
    let rest := t.dropWhile (· ≠ '[')
    match index rest with
    | some (i, rest') => some (name, some i, rest')
    | none => some (name, none, rest)

/-- The loop of `ComplexIncludeFilter::Filter`, L150-182.  Every round removes a character, so `fuel` rounds are enough for
a name of that length. -/
def complexGo (s : List Str) : Nat → Str → Str → Bool
  | 0, _, _ => true
  | fuel + 1, find, name =>
    match search name with
    | none => true
    | some (m1, some m2, suffix) =>
      let isStar := m1 == ['*']
      let numberTry := find ++ m1 ++ ['['] ++ m2 ++ [']']
      let starTry := find ++ m1 ++ "[*]".toList
      if !isStar && s.contains numberTry then complexGo s fuel (find ++ numberTry) suffix
      else if s.contains starTry then complexGo s fuel (find ++ starTry) suffix
      else false
    | some (m1, none, _) => s.contains (find ++ m1)

/-- `ComplexIncludeFilter::Filter`. -/
def complex (s : List Str) (name : Str) : Bool := complexGo s (name.length + 1) [] name

/-- The calls that change a filter. -/
inductive Op where
  | clear
  | insert (x : Str)
  | erase (x : Str)
deriving DecidableEq, Repr

def step (s : List Str) : Op → Option (List Str)
  | .clear => some []
  | .insert x => some (insert s x)
  | .erase x => erase s x

def run : List Str → List Op → Option (List Str)
  | s, [] => some s
  | s, o :: os => match step s o with
    | none => none
    | some s => run s os

end Ecal.Proto.Filter
