import Verif.Text.CmdLine

/-!
# Starting a process in a terminal window

Code modelled: `/repo/ecal/core/src/ecal_process.cpp`, the Linux `StartProcess` L987-1528 with a terminal emulator
(`use_terminal_emulator`, L1001-1007), and `/repo/ecal/core/src/ecal_process_stub.cpp` L31-119.

The calling process (main) makes a FIFO, forks a child, and the child forks a grandchild, which executes the terminal
emulator.  The terminal starts `ecal_process_stub`.  The stub creates and locks a lock file, sends its process id through
the FIFO and executes the program; if that fails it writes the error number to the lock file.  If the terminal cannot be
executed, the grandchild sends the id 0.  Main reads the id from the FIFO (5 s), waits for the lock and reads the lock
file.

The processes take their steps in any order (`Label`).  A step that would block is not possible (`none`).  Time is left
out: `timeout` may happen whenever `select` waits and the FIFO is empty.  `interrupt` is a signal handled by main during
a blocking system call; `spawn`: the terminal starts the stub; `close`: the window is closed, and what runs in it ends.
What the system calls answer is given by `Env`.

Simplifications: those of `Ecal.Proc` (`Start.lean`): names are unique, nobody else uses the files; errors of `read`,
`write` and `unlink` on open files are left out; the child's `setsid` (L1106-1117) has no effect here.  The terminal
executes the stub with the arguments that follow its own.  The error number is read after writing a message to the
error output (stub L103, L105), which may change it, but not to 0.  The grandchild's `flock` of descriptor 0 (L1362)
unlocks nothing that is used here.
-/

namespace Ecal.Proc.Term

/-- What the system answers, and the arguments of the call. -/
structure Env where
  /-- `mkfifo` succeeds -/
  mkfifoOk : Bool
  /-- the first `fork` succeeds -/
  fork1Ok : Bool
  /-- the second `fork` succeeds -/
  fork2Ok : Bool
  /-- changing to the working directory succeeds (or none is given) -/
  chdirOk : Bool
  /-- the terminal emulator can be executed -/
  termOk : Bool
  /-- the lock file can be created -/
  lockOk : Bool
  /-- the error number of executing the program, 0: it succeeds -/
  execErr : Nat
  /-- the process id of the stub -/
  pid : Nat
  /-- main waits for the end of the program (`block_`) -/
  block : Bool
  /-- orphans become children of main: it is process 1 of a container or a "child subreaper" -/
  reaper : Bool
  /-- the stub ignores SIGPIPE -/
  sigIgn : Bool
deriving DecidableEq, Repr

/-- Where main is. -/
inductive MPc
  | mkfifo | fork | wait | openFifo | select | read | closeFifo | openLock | flock | readErr | block | unlinkFifo | unlinkLock | done
deriving DecidableEq, Repr

/-- Where the child is. -/
inductive CPc
  | none | fork | exit | gone
deriving DecidableEq, Repr

/-- Where the grandchild is.  `term`: it is the terminal; `opening`: it waits for a reader of the FIFO; `dead`: it ended. -/
inductive GPc
  | none | chdir | exec | term | openFifo | opening | write | dead
deriving DecidableEq, Repr

/-- Where the stub is.  `opening`: it waits for a reader of the FIFO; `running`, `ended`: the program runs, has ended;
`dead`: it ended without executing the program. -/
inductive SPc
  | none | openLock | flock | openFifo | opening | write | exec | errWrite | running | ended | dead
deriving DecidableEq, Repr

structure State where
  m : MPc := .mkfifo
  c : CPc := .none
  g : GPc := .none
  p : SPc := .none
  /-- the FIFO has its name in the file system -/
  fifo : Bool := false
  /-- the lock file has its name in the file system -/
  lock : Bool := false
  /-- main has the FIFO open -/
  mOpen : Bool := false
  /-- what is in the FIFO -/
  data : Option Nat := .none
  /-- the stub has the lock file open -/
  sfd : Bool := false
  /-- the stub holds the lock -/
  held : Bool := false
  /-- the error number in the lock file, 0: it is empty -/
  content : Nat := 0
  /-- `process_pid` of main -/
  got : Nat := 0
deriving DecidableEq, Repr

def init : State := {}

inductive Label
  | main | child | grand | stub
  /-- the terminal starts the stub -/
  | spawn
  /-- the window is closed -/
  | close
  /-- `select` of main ends after 5 s -/
  | timeout
  /-- a blocking call of main ends with EINTR -/
  | interrupt
  /-- the program ends -/
  | progEnd
deriving DecidableEq, Repr

/-- A step of main (L1077-1095, L1386-1525).  The program is a child of the terminal: `waitpid` (L1513) waits only if the
terminal has gone and main inherits its children. -/
def mainStep (e : Env) (s : State) : Option State :=
  match s.m with
  | .mkfifo => some { s with fifo := e.mkfifoOk, m := .fork }
  | .fork => some (if e.fork1Ok then { s with c := .fork, m := .wait } else { s with m := .done })
  | .wait => if s.c = .gone then some { s with m := .openFifo } else none
  | .openFifo => some (if s.fifo then { s with mOpen := true, m := .select } else { s with m := .block })
  | .select => if s.data = none then none else some { s with m := .read }
  | .read => some { s with got := s.data.getD 0, data := none, m := .closeFifo }
  | .closeFifo => some { s with mOpen := false, m := if s.got > 0 then .openLock else .block }
  | .openLock => some { s with m := if s.lock then .flock else .block }
  | .flock => if s.held then none else some { s with m := .readErr }
  | .readErr => some { s with got := if s.content ≠ 0 then 0 else s.got, m := .block }
  | .block =>
    if e.block ∧ s.got > 0 ∧ e.reaper ∧ s.g = .dead ∧ s.p = .running then none else some { s with m := .unlinkFifo }
  | .unlinkFifo => some { s with fifo := false, m := .unlinkLock }
  | .unlinkLock => some { s with lock := false, m := .done }
  | .done => none

/-- A step of the child (L1122-1133). -/
def childStep (e : Env) (s : State) : Option State :=
  match s.c with
  | .none => none
  | .fork => some (if e.fork2Ok then { s with c := .exit, g := .chdir } else { s with c := .gone })
  | .exit => some { s with c := .gone }
  | .gone => none

/-- A step of the grandchild (L1140-1147, L1321, L1357-1383). -/
def grandStep (e : Env) (s : State) : Option State :=
  match s.g with
  | .none => none
  | .chdir => some { s with g := if e.chdirOk then .exec else .dead }
  | .exec => some { s with g := if e.termOk then .term else .openFifo }
  | .term => none
  | .openFifo => some { s with g := if s.fifo then .opening else .dead }
  | .opening => if s.mOpen then some { s with g := .write } else none
  | .write => some (if s.mOpen then { s with data := some 0, g := .dead } else { s with g := .dead })
  | .dead => none

/-- A step of the stub (`/repo/ecal/core/src/ecal_process_stub.cpp` L44-115). -/
def stubStep (e : Env) (s : State) : Option State :=
  match s.p with
  | .none => none
  | .openLock => some (if e.lockOk then { s with lock := true, sfd := true, p := .flock } else { s with p := .flock })
  | .flock => some { s with held := s.sfd, p := .openFifo }
  | .openFifo => some { s with p := if s.fifo then .opening else .exec }
  | .opening => if s.mOpen then some { s with p := .write } else none
  | .write =>
    some (if s.mOpen then { s with data := some e.pid, p := .exec }
      else if e.sigIgn then { s with p := .exec }
      else { s with held := false, p := .dead })
  | .exec => some (if e.execErr = 0 then { s with held := false, p := .running } else { s with p := .errWrite })
  | .errWrite => some { s with content := if s.sfd then e.execErr else s.content, held := false, p := .dead }
  | .running => none
  | .ended => none
  | .dead => none

/-- The window is closed: the terminal ends, and with it the stub; the program may go on (`progEnd`). -/
def closeStep (s : State) : Option State :=
  if s.g = .term then
    match s.p with
    | .none => some { s with g := .dead }
    | .running => some { s with g := .dead }
    | .ended => some { s with g := .dead }
    | .dead => some { s with g := .dead }
    | _ => some { s with g := .dead, p := .dead, held := false }
  else none

/-- Main is interrupted by a signal: `waitpid` and `flock` are not repeated (L1386-1390, L1474-1477, L1513), `select` is
taken as a failure (L1428-1431). -/
def interruptStep (s : State) : Option State :=
  match s.m with
  | .wait => some { s with m := .openFifo }
  | .select => if s.data = none then some { s with m := .closeFifo } else none
  | .flock => some { s with m := .readErr }
  | .block => some { s with m := .unlinkFifo }
  | _ => none

def step (e : Env) (s : State) : Label → Option State
  | .main => mainStep e s
  | .child => childStep e s
  | .grand => grandStep e s
  | .stub => stubStep e s
  | .spawn => if s.g = .term ∧ s.p = .none then some { s with p := .openLock } else none
  | .close => closeStep s
  | .timeout => if s.m = .select ∧ s.data = none then some { s with m := .closeFifo } else none
  | .interrupt => interruptStep s
  | .progEnd => if s.p = .running then some { s with p := .ended } else none

def run (e : Env) : State → List Label → Option State
  | s, [] => some s
  | s, l :: ls => match step e s l with
    | none => none
    | some s' => run e s' ls

/-! ## Arguments -/

open Ecal.Text.CmdLine (toArgv)

/-- "ecal_process_stub" -/
def stubName : List UInt8 := [101, 99, 97, 108, 95, 112, 114, 111, 99, 101, 115, 115, 95, 115, 116, 117, 98]

/-- "eCAL Process Stub 1.0.0" (ecal_process_stub.h L21) -/
def stubVersion : List UInt8 :=
  [101, 67, 65, 76, 32, 80, 114, 111, 99, 101, 115, 115, 32, 83, 116, 117, 98, 32, 49, 46, 48, 46, 48]

/-- The command of the terminal emulator, empty: none is used (L627-704, L1001-1007).  `display`: the environment variable;
`command`: from the configuration; `version`: what `ecal_process_stub --version` prints, without surrounding white
space; `none`: it cannot be run. -/
def terminal (hidden : Bool) (display : Option (List UInt8)) (command : List UInt8) (version : Option (List UInt8)) :
    List UInt8 :=
  if hidden then []
  else if display.getD [] = [] then []
  else if command = [] then []
  else if version = some stubVersion then command
  else []

/-- What the grandchild executes (L1178-1202). -/
def argv (term name args fifo lock : List UInt8) : List (List UInt8) :=
  (if term = [] then [] else toArgv term ++ [stubName, fifo, lock]) ++ name :: toArgv args

/-- What the stub executes, given its arguments (`/repo/ecal/core/src/ecal_process_stub.cpp` L44-48, L90-97); `none`: it
refuses. -/
def stubExec (args : List (List UInt8)) : Option (List (List UInt8)) :=
  if args.length > 3 then some (args.drop 3) else none

end Ecal.Proc.Term
