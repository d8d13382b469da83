import Verif.Text.Split

/-!
# Command lines

Code modelled: `/repo/lib/ecal_utils/include/ecal_utils/ecal_utils.h`: `GetStartOfNextArgument` L388-412,
`GetEndOfNextArgument` L440-490, `splitCommandLine` L510-559, `ToArgv` L561-626, `ToCommandLine` L628-675.
`GetProcessParameter` of `/repo/ecal/core/src/ecal_process.cpp` L942-982 escapes and joins the arguments of the
process in the same way; `StartProcess` takes its arguments apart with `ToArgv` (L1180, L1188).

Characters are bytes, `std::isspace` is that of the "C" locale.  Positions are replaced by the rest of the text.
-/

namespace Ecal.Text.CmdLine
open Ecal.Text

def blank : UInt8 := 32
def dquote : UInt8 := 34
def squote : UInt8 := 39
def bslash : UInt8 := 92

/-- The loop of `ToArgv` (L571-624): inside double quotes, inside single quotes, inside an argument, the argument so
far, the rest of the text. -/
def argvGo (q sq ins : Bool) (cur : Str) : Str → List Str
  | [] => if ins then [cur] else []
  | c :: r =>
    if ins && !q && !sq && isSpace c then cur :: argvGo q sq false [] r
    else if c == squote && !q then argvGo q (!sq) true cur r
    else if c == dquote && !sq then argvGo (!q) sq true cur r
    else if c == bslash then
      match r with
      | [] => [cur]
      | d :: r' => argvGo q sq true (cur ++ [d]) r'
    else if q || sq then argvGo q sq ins (cur ++ [c]) r
    else if !isSpace c then argvGo q sq true (cur ++ [c]) r
    else argvGo q sq ins cur r

/-- `ToArgv` -/
def toArgv (s : Str) : List Str := argvGo false false false [] s

/-- One character of an argument (L645-652). -/
def escC (c : UInt8) : Str := if c == bslash || c == dquote || c == squote then [bslash, c] else [c]

/-- One argument (L636-657). -/
def escArg (a : Str) : Str :=
  if a.contains blank then [dquote] ++ a.flatMap escC ++ [dquote]
  else if a.flatMap escC = [] then [dquote, dquote]
  else a.flatMap escC

/-- `ToCommandLine` -/
def toCommandLine (args : List Str) : Str := join [blank] (args.map escArg)

/-- `GetEndOfNextArgument` (L440-490): the number of characters of the argument that starts here. -/
def pieceLen (dq sq : Bool) : Str → Nat
  | [] => 0
  | c :: r =>
    if c == bslash then
      match r with
      | [] => 1
      | _ :: r' => 2 + pieceLen dq sq r'
    else if c == blank && !dq && !sq then 0
    else if c == dquote then 1 + pieceLen (if sq then dq else !dq) sq r
    else if c == squote then 1 + pieceLen dq (if dq then sq else !sq) r
    else 1 + pieceLen dq sq r

/-- The loop of `splitCommandLine` (L516-557); `lft`: how many parts may still come, `none`: any number.  The first
argument bounds the turns; every turn takes at least one character. -/
def splitGo : Nat → Option Nat → Str → List Str
  | 0, _, _ => []
  | n + 1, lft, s =>
    if lft = some 0 then []
    else
      let t := s.dropWhile isSpace
      if t = [] then []
      else if lft = some 1 then [t]
      else t.take (pieceLen false false t) :: splitGo n (lft.map (· - 1)) (t.drop (pieceLen false false t))

/-- `splitCommandLine`; 0: any number of parts. -/
def splitCommandLine (s : Str) (max : Nat) : List Str := splitGo (s.length + 1) (if max = 0 then none else some max) s

end Ecal.Text.CmdLine
