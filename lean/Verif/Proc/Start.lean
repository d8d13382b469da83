/-!
# Starting a process

Code modelled: `/repo/ecal/core/src/ecal_process.cpp`, the Linux `StartProcess` L987-1528 without a terminal emulator.

The calling process (main) makes a FIFO, forks a child, and the child forks a grandchild.  The grandchild creates and
locks a lock file, sends its process id through the FIFO and executes the program; if that fails it writes the error
number to the lock file.  Main reads the id from the FIFO (5 s), waits for the lock and reads the lock file.

The three processes take their steps in any order (`Label`).  A step that would block is not possible (`none`).
Time is left out: `timeout` may happen whenever `select` waits and the FIFO is empty.  `interrupt` is a signal handled
by main during a blocking system call.  What the system calls answer is given by `Env`.

Simplifications: names are unique, nobody else uses the files; errors of `read`, `write` and `unlink` on open files
are left out; the child's `setsid` (L1106-1117) has no effect here; the locks of main on the lock file are not kept:
main has it only after the grandchild gave it back.
-/

namespace Ecal.Proc

/-- What the system answers, and the arguments of the call. -/
structure Env where
  /-- `mkfifo` succeeds -/
  mkfifoOk : Bool
  /-- the first `fork` succeeds -/
  fork1Ok : Bool
  /-- the second `fork` succeeds -/
  fork2Ok : Bool
  /-- changing to the working directory succeeds (or none is given) -/
  chdirOk : Bool
  /-- the lock file can be created -/
  lockOk : Bool
  /-- the error number of `execvp`, 0: it succeeds -/
  execErr : Nat
  /-- the process id of the grandchild -/
  pid : Nat
  /-- main waits for the end of the program (`block_`) -/
  block : Bool
  /-- orphans become children of main: it is process 1 of a container or a "child subreaper" -/
  reaper : Bool
  /-- main, and so the grandchild, ignores SIGPIPE -/
  sigIgn : Bool
deriving DecidableEq, Repr

/-- Where main is. -/
inductive MPc
  | mkfifo | fork | wait | openFifo | select | read | closeFifo | openLock | flock | readErr | block | unlinkFifo | unlinkLock | done
deriving DecidableEq, Repr

/-- Where the child is. -/
inductive CPc
  | none | fork | exit | gone
deriving DecidableEq, Repr

/-- Where the grandchild is.  `opening`: it waits for a reader of the FIFO; `running`, `ended`: the program runs, has
ended; `dead`: it ended without executing the program. -/
inductive GPc
  | none | chdir | openLock | flock | openFifo | opening | write | exec | errWrite | unlock | running | ended | dead
deriving DecidableEq, Repr

structure State where
  m : MPc := .mkfifo
  c : CPc := .none
  g : GPc := .none
  /-- the FIFO has its name in the file system -/
  fifo : Bool := false
  /-- the lock file has its name in the file system -/
  lock : Bool := false
  /-- main has the FIFO open -/
  mOpen : Bool := false
  /-- what is in the FIFO -/
  data : Option Nat := .none
  /-- the grandchild has the lock file open -/
  gfd : Bool := false
  /-- the grandchild holds the lock -/
  held : Bool := false
  /-- the error number in the lock file, 0: it is empty -/
  content : Nat := 0
  /-- `process_pid` of main -/
  got : Nat := 0
deriving DecidableEq, Repr

def init : State := {}

inductive Label
  | main | child | grand
  /-- `select` of main ends after 5 s -/
  | timeout
  /-- a blocking call of main ends with EINTR -/
  | interrupt
  /-- the program ends -/
  | progEnd
deriving DecidableEq, Repr

/-- A step of main (L1077-1095, L1386-1525). -/
def mainStep (e : Env) (s : State) : Option State :=
  match s.m with
  | .mkfifo => some { s with fifo := e.mkfifoOk, m := .fork }
  | .fork => some (if e.fork1Ok then { s with c := .fork, m := .wait } else { s with m := .done })
  | .wait => if s.c = .gone then some { s with m := .openFifo } else none
  | .openFifo => some (if s.fifo then { s with mOpen := true, m := .select } else { s with m := .block })
  | .select => if s.data = none then none else some { s with m := .read }
  | .read => some { s with got := s.data.getD 0, data := none, m := .closeFifo }
  | .closeFifo => some { s with mOpen := false, m := if s.got > 0 then .openLock else .block }
  | .openLock => some { s with m := if s.lock then .flock else .block }
  | .flock => if s.held then none else some { s with m := .readErr }
  | .readErr => some { s with got := if s.content ≠ 0 then 0 else s.got, m := .block }
  | .block =>
    if e.block ∧ s.got > 0 ∧ e.reaper ∧ s.g ≠ .ended ∧ s.g ≠ .dead then none else some { s with m := .unlinkFifo }
  | .unlinkFifo => some { s with fifo := false, m := .unlinkLock }
  | .unlinkLock => some { s with lock := false, m := .done }
  | .done => none

/-- A step of the child (L1122-1133). -/
def childStep (e : Env) (s : State) : Option State :=
  match s.c with
  | .none => none
  | .fork => some (if e.fork2Ok then { s with c := .exit, g := .chdir } else { s with c := .gone })
  | .exit => some { s with c := .gone }
  | .gone => none

/-- A step of the grandchild (L1140-1147, L1223-1321, L1361-1372). -/
def grandStep (e : Env) (s : State) : Option State :=
  match s.g with
  | .none => none
  | .chdir => some { s with g := if e.chdirOk then .openLock else .dead }
  | .openLock => some (if e.lockOk then { s with lock := true, gfd := true, g := .flock } else { s with g := .flock })
  | .flock => some { s with held := s.gfd, g := .openFifo }
  | .openFifo => some { s with g := if s.fifo then .opening else .exec }
  | .opening => if s.mOpen then some { s with g := .write } else none
  | .write =>
    some (if s.mOpen then { s with data := some e.pid, g := .exec }
      else if e.sigIgn then { s with g := .exec }
      else { s with held := false, g := .dead })
  | .exec => some (if e.execErr = 0 then { s with held := false, g := .running } else { s with g := .errWrite })
  | .errWrite => some { s with content := if s.gfd then e.execErr else s.content, g := .unlock }
  | .unlock => some { s with held := false, g := .dead }
  | .running => none
  | .ended => none
  | .dead => none

/-- Main is interrupted by a signal: `waitpid` and `flock` are not repeated (L1386-1390, L1474-1477, L1513), `select` is
taken as a failure (L1428-1431). -/
def interruptStep (s : State) : Option State :=
  match s.m with
  | .wait => some { s with m := .openFifo }
  | .select => if s.data = none then some { s with m := .closeFifo } else none
  | .flock => some { s with m := .readErr }
  | .block => some { s with m := .unlinkFifo }
  | _ => none

def step (e : Env) (s : State) : Label → Option State
  | .main => mainStep e s
  | .child => childStep e s
  | .grand => grandStep e s
  | .timeout => if s.m = .select ∧ s.data = none then some { s with m := .closeFifo } else none
  | .interrupt => interruptStep s
  | .progEnd => if s.g = .running then some { s with g := .ended } else none

def run (e : Env) : State → List Label → Option State
  | s, [] => some s
  | s, l :: ls => match step e s l with
    | none => none
    | some s' => run e s' ls

end Ecal.Proc
