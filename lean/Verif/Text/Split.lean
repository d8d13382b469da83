/-!
# Text helpers: splitting and joining

Code modelled: `/repo/lib/ecal_utils/include/ecal_utils/string.h`: `Split` L81-102, `SplitQuotedString`
L104-214, `Join` L224-237.

Characters are bytes.  `std::isspace` is that of the "C" locale (space, \t, \n, \v, \f, \r).
-/

namespace Ecal.Text

abbrev Str := List UInt8

/-- `std::isspace`. -/
def isSpace (c : UInt8) : Bool := c == 32 || (9 ≤ c && c ≤ 13)

/-- `Split` from the current position on, `cur` the part that has been started (the two inner loops over
delimiters and over the part, L85-101, are one pass here). -/
def splitFrom (delim cur : Str) : Str → List Str
  | [] => if cur = [] then [] else [cur]
  | c :: r =>
    if delim.contains c then
      if cur = [] then splitFrom delim [] r else cur :: splitFrom delim [] r
    else splitFrom delim (cur ++ [c]) r

/-- `Split`. -/
def split (delim s : Str) : List Str := splitFrom delim [] s

/-- `Join`. -/
def join (delim : Str) : List Str → Str
  | [] => []
  | [a] => a
  | a :: b :: r => a ++ delim ++ join delim (b :: r)

/-! ### `SplitQuotedString` -/

inductive QState where
  | outside | string | quoted          -- `NONE`, `STRING`, `QUOTED_STRING`
deriving DecidableEq, Repr

structure QOpt where
  escape       : UInt8 := 92           -- backslash
  removeQuotes : Bool := true
  keepEmpty    : Bool := false

def quote : UInt8 := 34

structure Q where
  st    : QState := .outside
  cur   : Str := []
  parts : List Str := []
deriving DecidableEq, Repr

/-- One turn of the loop (L120-207) without an escape sequence. -/
def plain (o : QOpt) (q : Q) (c : UInt8) : Q :=
  match q.st with
  | .outside =>
    if isSpace c then q
    else if c == quote then { q with st := .quoted, cur := if o.removeQuotes then q.cur else q.cur ++ [c] }
    else { q with st := .string, cur := q.cur ++ [c] }
  | .string =>
    if isSpace c then { st := .outside, cur := [], parts := q.parts ++ [q.cur] }
    else if c == quote then { q with st := .quoted, cur := if o.removeQuotes then q.cur else q.cur ++ [c] }
    else { q with cur := q.cur ++ [c] }
  | .quoted =>
    if c == quote then { q with st := .string, cur := if o.removeQuotes then q.cur else q.cur ++ [c] }
    else { q with cur := q.cur ++ [c] }

/-- Is an escape sequence recognised here? -/
def isEscape (o : QOpt) (q : Q) (c d : UInt8) : Bool :=
  (q.st == .quoted || !isSpace c) && c != quote && c == o.escape && (d == quote || d == o.escape)

/-- The character behind the escape is copied. -/
def escape (q : Q) (d : UInt8) : Q :=
  { q with st := if q.st = .quoted then .quoted else .string, cur := q.cur ++ [d] }

/-- The loop. -/
def sqLoop (o : QOpt) (q : Q) : Str → Q
  | [] => q
  | [c] => plain o q c
  | c :: d :: r => if isEscape o q c d then sqLoop o (escape q d) r else sqLoop o (plain o q c) (d :: r)

/-- `SplitQuotedString`. -/
def splitQuoted (o : QOpt) (s : Str) : List Str :=
  let q := sqLoop o {} s
  if !q.cur.isEmpty || o.keepEmpty then q.parts ++ [q.cur] else q.parts

end Ecal.Text
