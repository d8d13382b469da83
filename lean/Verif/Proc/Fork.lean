import Verif.Registration.Applier

/-!
# Who a process says it is: ids, host names and shutdown events over `fork` and `exec`

Code modelled (`/repo/ecal/core/src`): `create_proc_id` (`ecal_process.cpp` L614-621), `GetProcessID` L711-715,
`GetHostName` L231-246, the statics `g_process_id`, `g_host_name` (`ecal_global_accessors.cpp` L41, L47),
`ShutdownProcEvent` (`ecal.cpp` L39-48), `Ok` (`ecal.cpp` L208-212), `ShutdownProcess` (`ecal_util.cpp`
L223-233), the receiver's filter (`registration/ecal_registration_receiver.cpp` L52, modelled in
`Verif.Registration.Applier`).

The operating system: a process has a number that no other living process has; `fork` makes a process with
a new number and a copy of the memory; `exec` keeps the number and starts with fresh memory; the number of a
process that has ended may be used again; the host may be renamed.

Simplifications: processes are told apart by their place in the list `procs` (order of birth);
`gethostname` succeeds; the shutdown event of a number is a flag in the kernel whatever opened it first, its
life as an object in shared memory is C49 and C128 (`Sync.NamedEvent`, `Shm.Names`); `Ok` is asked while the
library is initialised; the threads of the library, which do not exist in a forked process, are left out.
-/

namespace Ecal.Proc.Fork

/-- A process: its number for the operating system and the library's statics in its memory. -/
structure Proc where
  pid       : Nat
  alive     : Bool := true
  cachePid  : Nat := 0        -- `g_process_id`
  cacheHost : String := ""    -- `g_host_name`
  evt       : Nat := 0        -- number in the static `event_name` of `ShutdownProcEvent`; 0: not initialised
deriving Repr, DecidableEq

structure World where
  procs : List Proc := []
  host  : String              -- what `gethostname` gives
  flags : List Nat := []      -- shutdown events that are set
  told  : List Nat := []      -- processes whose `Ok` has seen a request
deriving Repr, DecidableEq

/-- `create_proc_id` (L614-621). -/
def readPid (p : Proc) : Proc := if p.cachePid = 0 then { p with cachePid := p.pid } else p

/-- `GetProcessID` (L711-715): what a call now would return. -/
def idOf (p : Proc) : Nat := (readPid p).cachePid

/-- `GetHostName` (L231-246) on a host named `h`. -/
def readHost (h : String) (p : Proc) : Proc := if p.cacheHost = "" then { p with cacheHost := h } else p

/-- What `GetHostName` would return now. -/
def hostOf (h : String) (p : Proc) : String := (readHost h p).cacheHost

/-- The statics of `ShutdownProcEvent` (`ecal.cpp` L41-46). -/
def readEvt (p : Proc) : Proc :=
  if (readPid p).evt = 0 then { readPid p with evt := (readPid p).cachePid } else readPid p

/-- Number of the event `Ok` looks at. -/
def evtOf (p : Proc) : Nat := (readEvt p).evt

inductive Op where
  | spawn (pid : Nat)          -- a program is started by some process outside
  | fork (i pid : Nat)         -- process `i` forks
  | exec (i : Nat)             -- process `i` starts another program in its place
  | exit (i : Nat)
  | getId (i : Nat)            -- any call that reads the process id
  | getHost (i : Nat)          -- any call that reads the host name
  | ok (i : Nat)
  | rename (h : String)        -- the host is renamed
  | shutdown (n : Nat)         -- `ShutdownProcess` of the number `n`, by anybody
deriving Repr, DecidableEq

/-- No living process has the number. -/
def free (w : World) (pid : Nat) : Bool := pid ≠ 0 && w.procs.all (fun p => !p.alive || p.pid ≠ pid)

/-- Process `i`, if it is living. -/
def living (w : World) (i : Nat) : Option Proc :=
  match w.procs[i]? with
  | some p => if p.alive then some p else none
  | none => none

/-- A change of the memory of the living process `i`. -/
def change (w : World) (i : Nat) (f : Proc → Proc) : Option World :=
  match living w i with
  | some p => some { w with procs := w.procs.set i (f p) }
  | none => none

/-- `Ok` (`ecal.cpp` L208-212): the wait takes the flag away (`ecal_event.cpp` L261-277). -/
def okStep (w : World) (i : Nat) : Option World :=
  match living w i with
  | some p =>
    if evtOf p ∈ w.flags then
      some { w with procs := w.procs.set i (readEvt p), flags := w.flags.filter (fun n => n ≠ evtOf p), told := i :: w.told }
    else some { w with procs := w.procs.set i (readEvt p) }
  | none => none

/-- Birth of a process. -/
def forkStep (w : World) (i pid : Nat) : Option World :=
  match living w i with
  | some p => if free w pid then some { w with procs := w.procs ++ [{ p with pid := pid }] } else none
  | none => none

def step (w : World) : Op → Option World
  | .spawn pid => if free w pid then some { w with procs := w.procs ++ [{ pid := pid }] } else none
  | .fork i pid => forkStep w i pid
  | .exec i => change w i (fun p => { pid := p.pid })
  | .exit i => change w i (fun p => { p with alive := false })
  | .getId i => change w i readPid
  | .getHost i => change w i (readHost w.host)
  | .ok i => okStep w i
  | .rename h => some { w with host := h }
  | .shutdown n => some { w with flags := n :: w.flags }

def run : World → List Op → Option World
  | w, [] => some w
  | w, o :: r => match step w o with
    | some w' => run w' r
    | none => none

/-- A host on which no process has been started. -/
def start (h : String) : World := { host := h }

/-- The filter of a process for registrations (`ecal_registration_receiver.cpp` L52: no loopback). -/
def filterOf (network : Bool) (group : String) (p : Proc) : Registration.Applier :=
  ⟨network, false, group, (idOf p : Int)⟩

/-- A registration sent by a process (`readwrite/ecal_writer.cpp` L917, `ecal_process_registration.cpp`
L40, `service/ecal_service_server_impl.cpp` L325): it carries the id the process reads. -/
def sampleOf (cmd : Registration.Cmd) (h topicHg processHg : String) (p : Proc) : Registration.Smp :=
  ⟨cmd, hostOf h p, (idOf p : Int), topicHg, processHg⟩

end Ecal.Proc.Fork
