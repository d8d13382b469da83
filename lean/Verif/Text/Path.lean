import Verif.Text.Split

/-!
# Paths of the file system

Code modelled: `/repo/lib/ecal_utils/src/filesystem.cpp`: `GetAbsoluteRoot` L484-524, `IsAbsolute` L526-529,
`IsRelative` L531-541, `CleanPathComponentList` L543-607, `CleanPath` L609-653, `AbsolutePath` L655-670,
`RelativePath` L672-707, `ChangeSeperators` L740-759, `IsEqual` L771-835, `FileName` L837-857, `BaseName`
L859-874; `/repo/lib/ecal_utils/include/ecal_utils/filesystem.h` L32-43 (`OsStyle`; the default argument of all
functions is `Combined`).

Platform: Linux, that is `Current` is `Unix` and the native separator is the slash.  Simplifications: the
working directory is a parameter; the regular expressions are written as conditions on the first
characters (`^` only matches at the beginning); `IsEqual` is modelled for the styles that compare case
sensitively.
-/

namespace Ecal.Text.Path

inductive Style where
  | combined | windows | unix
deriving DecidableEq, Repr

def slash : UInt8 := 47
def backslash : UInt8 := 92
/-- "." -/
def dot : Str := [46]
/-- ".." -/
def dotdot : Str := [46, 46]

/-- The separators of a style as input. -/
def isSep (st : Style) (c : UInt8) : Bool := (st != .unix && c == backslash) || c == slash

/-- `ToUnixSeperators`. -/
def toUnix (st : Style) (s : Str) : Str := s.map (fun c => if isSep st c then slash else c)

def isAlpha (c : UInt8) : Bool := (65 ≤ c && c ≤ 90) || (97 ≤ c && c ≤ 122)

/-- Slash or backslash. -/
def isAnySep (c : UInt8) : Bool := c == slash || c == backslash

/-- A drive with separator, or a drive only (L488, L489). -/
def isDrive : Str → Bool
  | a :: b :: r =>
    isAlpha a && b == 58 && ((match r with | c :: _ => isAnySep c | [] => false) || r.all (· == 32))
  | _ => false

/-- A network path (L490). -/
def isNetwork : Str → Bool
  | a :: b :: c :: _ => isAnySep a && isAnySep b && !isAnySep c
  | _ => false

/-- `GetAbsoluteRoot`. -/
def root (st : Style) (p : Str) : Str :=
  if st ≠ .unix ∧ isDrive p = true then p.take 2
  else if st ≠ .unix ∧ isNetwork p = true then p.take 2 ++ (p.drop 2).takeWhile (fun c => !isAnySep c)
  else match p with
    | c :: _ =>
      if st = .unix ∧ c = slash then [c]
      else if st = .combined ∧ isAnySep c = true then [c]
      else []
    | [] => []

/-- `IsAbsolute`. -/
def isAbsolute (st : Style) (p : Str) : Bool := root st p != []

/-- One turn of the loop (L566-604); the components are kept in reverse order. -/
def compStep (abs first : Bool) (st : List Str) (p : Str) : List Str :=
  if first = true ∧ p = dot ∧ abs = false then dot :: st
  else if p = [] ∨ p = dot then st
  else if p = dotdot then
    if abs then st.tail
    else match st with
      | [] => [dotdot]
      | t :: r => if t = dotdot then dotdot :: t :: r else r
  else p :: st

/-- The loop over all parts. -/
def compLoop (abs : Bool) : List Str → List Str
  | [] => []
  | p :: r => (r.foldl (compStep abs false) (compStep abs true [] p)).reverse

/-- `CleanPathComponentList`. -/
def comps (st : Style) (p : Str) : List Str :=
  compLoop (isAbsolute st p) (split [slash] ((toUnix st p).drop (root st p).length))

/-- The cleaned path before the trailing separator (L628-645). -/
def cleanBody (st : Style) (p : Str) : Str :=
  let r := toUnix st (root st p)
  (if r = [] then [] else if r.getLast? = some slash then r else r ++ [slash]) ++ join [slash] (comps st p)

/-- `CleanPath`; `none`: the last character of an empty string is read (L647). -/
def clean (st : Style) (p : Str) : Option Str :=
  if p = [] then some []
  else
    let b := cleanBody st p
    if (toUnix st p).getLast? = some slash then
      if b = [] then none
      else if b.getLast? = some slash then some b else some (b ++ [slash])
    else some b

/-- `AbsolutePath(base_path, relative_path)` (L655-658): the base is cleaned in the default style. -/
def absoluteFrom (st : Style) (base rel : Str) : Option Str :=
  (clean .combined base).bind (fun b => clean st (b ++ [slash] ++ rel))

/-- `AbsolutePath(relative_path)` (L660-670): a relative path is cleaned in the default style. -/
def absolutePath (st : Style) (cwd p : Str) : Option Str :=
  if isAbsolute st p then clean st p else clean .combined (cwd ++ [slash] ++ p)

/-- The index of the first difference (L677-686): 0 if there is none. -/
def sameSize : Nat → List Str → List Str → Nat
  | i, a :: r, b :: r' => if a ≠ b then i else sameSize (i + 1) r r'
  | _, _, _ => 0

/-- `RelativePath`. -/
def relativePath (st : Style) (base p : Str) : Str :=
  let bl := comps st base
  let pl := comps st p
  let same := sameSize 0 pl bl
  (if 0 < same then (List.replicate (bl.length - same) [46, 46, 47]).flatten else []) ++
    join [slash] (pl.drop same)

/-- `IsEqual` for `Unix` and `Combined`; `none`: undefined. -/
def isEqual (st : Style) (cwd p q : Str) : Option Bool :=
  match absolutePath st cwd p, absolutePath st cwd q with
  | some a, some b =>
    some (root st (toUnix st a) == root st (toUnix st b) && comps st (toUnix st a) == comps st (toUnix st b))
  | _, _ => none

/-- `FileName`. -/
def fileName (st : Style) (p : Str) : Str :=
  match p.getLast? with
  | none => []
  | some c => if isSep st c then [] else ((comps st p).getLast?).getD []

/-- `BaseName`. -/
def baseName (st : Style) (p : Str) : Str := (fileName st p).takeWhile (· != 46)

end Ecal.Text.Path
