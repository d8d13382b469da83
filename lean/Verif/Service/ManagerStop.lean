/-!
# Stopping the service threads

Code modelled: `/repo/ecal/core/src/service/ecal_service_singleton_manager.cpp` L88-123 (`get_client_manager`), L125-160
(`get_server_manager`), L162-181 (`stop`), L183-187 (`reset`).  The callbacks of the services of a process run on four
threads.  Creating a server (`/repo/ecal/core/src/service/ecal_service_server_impl.cpp` L76), and connecting a client to a
new server (`/repo/ecal/core/src/service/ecal_service_client_impl.cpp` L723, which runs inside `Call` and at the creation
of a client), ask for the manager; `Finalize` stops it (`/repo/ecal/core/src/ecal_globals.cpp` L292), `Initialize`
resets it.

Any number of threads of the application and all service threads make calls in any interleaving; a thread that holds
the mutex of the manager does so between `lock`/`stopLock` and `finish`/`join`.

Simplifications: the two managers are one; stopping them (L168-172) is one step with setting `stopped`; a service thread
ends when it is between two callbacks and the managers are stopped; `std::thread::join` on the own thread throws, and as
nothing on the way catches the exception the process is terminated.
-/

namespace Ecal.Service.MgrStop

/-- A thread of the application, or a service thread (numbered in the order of creation). -/
inductive Tid where
  | app (n : Nat)
  | io (n : Nat)
deriving DecidableEq, Repr

inductive Pc where
  /-- service thread: between two callbacks; application: outside the library -/
  | idle
  /-- in a callback, or in a call of the library -/
  | call
  /-- asks for a manager, saw that it is not stopped (L93), waits for the mutex (L97) -/
  | checked
  /-- asks for a manager and has the mutex (L98-L122) -/
  | holding
  /-- in `stop`, waits for the mutex (L164) -/
  | stopWait
  /-- in `stop`, has the mutex, waits for the service threads (L174) -/
  | joining
deriving DecidableEq, Repr

structure State where
  /-- `stopped` -/
  stopped : Bool
  /-- `singleton_mutex` -/
  owner : Option Tid
  pc : Tid → Pc
  /-- the running service threads -/
  live : List Nat
  /-- number of service threads created so far -/
  next : Nat

inductive Label where
  /-- a service thread begins a callback, the application begins a call -/
  | enter (t : Tid)
  | leave (t : Tid)
  /-- asks for a manager: the first look at `stopped` (L93, L130) -/
  | quick (t : Tid)
  /-- takes the mutex (L97, L134) -/
  | lock (t : Tid)
  /-- gets the manager or nothing, gives the mutex back (L98-L122) -/
  | finish (t : Tid)
  /-- calls `stop` -/
  | stop (t : Tid)
  /-- takes the mutex, stops the managers (L164-172) -/
  | stopLock (t : Tid)
  /-- all service threads ended (L174-180) -/
  | join (t : Tid)
  /-- a service thread ends -/
  | exit (n : Nat)
  /-- `reset` (L183-187) -/
  | reset
deriving DecidableEq, Repr

inductive Out where
  | ok (s : State)
  /-- not possible (now) -/
  | blocked
  /-- the process is terminated: a service thread waits for itself -/
  | terminated

def upd (f : Tid → Pc) (t : Tid) (p : Pc) : Tid → Pc := fun u => if u = t then p else f u

/-- Is this a thread that runs? -/
def exists' (s : State) : Tid → Bool
  | .app _ => true
  | .io n => s.live.contains n

/-- `num_io_threads` (`ecal_service_singleton_manager.h` L72). -/
def numIo : Nat := 4

/-- L98-L122: threads are created if there are none. -/
def create (s : State) : State :=
  if s.stopped = false ∧ s.live = [] then { s with live := (List.range numIo).map (s.next + ·), next := s.next + numIo } else s

def step (s : State) : Label → Out
  | .enter t => if exists' s t = true ∧ s.pc t = .idle then .ok { s with pc := upd s.pc t .call } else .blocked
  | .leave t => if s.pc t = .call then .ok { s with pc := upd s.pc t .idle } else .blocked
  | .quick t =>
    if s.pc t = .call then (if s.stopped = true then .ok s else .ok { s with pc := upd s.pc t .checked }) else .blocked
  | .lock t =>
    if s.pc t = .checked ∧ s.owner = none then .ok { s with pc := upd s.pc t .holding, owner := some t } else .blocked
  | .finish t =>
    if s.pc t = .holding then .ok (create { s with pc := upd s.pc t .call, owner := none }) else .blocked
  | .stop t => if s.pc t = .call then .ok { s with pc := upd s.pc t .stopWait } else .blocked
  | .stopLock t =>
    if s.pc t = .stopWait ∧ s.owner = none then .ok { s with pc := upd s.pc t .joining, owner := some t, stopped := true }
    else .blocked
  | .join t =>
    if s.pc t = .joining then
      match t with
      | .io _ => .terminated
      | .app _ => if s.live = [] then .ok { s with pc := upd s.pc t .call, owner := none } else .blocked
    else .blocked
  | .exit n =>
    if n ∈ s.live ∧ s.pc (.io n) = .idle ∧ s.stopped = true then .ok { s with live := s.live.filter (· ≠ n) } else .blocked
  | .reset => if s.owner = none then .ok { s with stopped := false } else .blocked

def run : State → List Label → Out
  | s, [] => .ok s
  | s, l :: ls => match step s l with
    | .ok s' => run s' ls
    | .blocked => .blocked
    | .terminated => .terminated

/-- After the start of the process. -/
def init : State := ⟨false, none, fun _ => .idle, [], 0⟩

end Ecal.Service.MgrStop
