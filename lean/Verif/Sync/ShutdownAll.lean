import Verif.Sync.Shutdown

/-!
# Asking processes to shut down

Code modelled: `/repo/ecal/core/src/ecal_util.cpp` L200-221 (`ShutdownProcess(name)`), L223-233
(`ShutdownProcess(pid)`), L235-264 (`ShutdownProcesses`), L266-296 (`ShutdownCore`); `ecal.cpp` L39-48,
L208-212 (`Ok`).

The processes of one host, each with the event of its process id (`Verif.Sync.Shutdown`).  A requester takes
the list of processes from its monitoring, selects, and then opens, sets and closes one event after the
other; everything interleaves with the calls of `Ok` of all processes and with other requesters.

Simplifications: the monitoring list is handed to the operation (what is in it: C45); what `GetMonitoring`
L186-198 does to the caller's own initialisation is `Verif.Life.Init`; opening an event that does not exist
is one step (its races: C117); a requester number stands for one thread of one process.
-/

namespace Ecal.Sync.ShutdownAll

open Ecal Ecal.Sync

/-- An element of `SMonitoring::processes`. -/
structure Entry where
  host  : String
  pname : String
  uname : String
  pid   : Nat
deriving Repr, DecidableEq

/-- The four functions. -/
inductive Call where
  | name (n : String)
  | pid (p : Nat)
  | processes
  | core
deriving Repr, DecidableEq

/-- The condition of L243-253. -/
def isUser (e : Entry) : Bool :=
  e.uname != "eCALMon" && e.uname != "eCALPlay" && e.uname != "eCALPlayGUI" && e.uname != "eCALRec" &&
  e.uname != "eCALRecGUI" && e.uname != "eCALSys" && e.uname != "eCALSysGUI" && e.uname != "eCALStop" &&
  e.uname != "eCALTopic"

/-- The condition of L274-283. -/
def isCore (e : Entry) : Bool :=
  e.uname == "eCALMon" || e.uname == "eCALPlay" || e.uname == "eCALPlayGUI" || e.uname == "eCALRec" ||
  e.uname == "eCALRecGUI" || e.uname == "eCALSys" || e.uname == "eCALSysGUI" || e.uname == "eCALStop" ||
  e.uname == "eCALTopic"

/-- The process ids a call goes through, in order. -/
def asked (host : String) (procs : List Entry) : Call → List Nat
  | .name n => (procs.filter fun e => e.pname == n && e.host == host).map (·.pid)
  | .pid p => [p]
  | .processes => (procs.filter fun e => isUser e && e.host == host).map (·.pid)
  | .core => (procs.filter fun e => isCore e && e.host == host).map (·.pid)

/-- `ShutdownProcess(pid)` by requester `r`. -/
def request (r p : Nat) : List (Nat × Shutdown.Step) := [(p, .rOpen r), (p, .rSet r), (p, .rClose r)]

/-- The events of all processes. -/
abbrev World := Nat → Shutdown.State

def wstep (w : World) (a : Nat × Shutdown.Step) : World :=
  fun p => if p = a.1 then (Shutdown.step (w p) a.2).1 else w p

/-- The world after a history and what the calls of `Ok` returned, with the process that called. -/
def wrun : World → List (Nat × Shutdown.Step) → World × List (Nat × Bool)
  | w, [] => (w, [])
  | w, a :: l =>
    let rest := wrun (wstep w a) l
    (rest.1, (Shutdown.step (w a.1) a.2).2.toList.map (fun b => (a.1, b)) ++ rest.2)

/-- What the calls of `Ok` by process `p` returned. -/
def oks (p : Nat) (l : List (Nat × Bool)) : List Bool := (l.filter fun x => x.1 == p).map (·.2)

/-- The steps of requester `r`. -/
def byReq (r : Nat) : Shutdown.Step → Bool
  | .ok => false
  | .rOpen k | .rSet k | .rClose k => k == r

end Ecal.Sync.ShutdownAll
