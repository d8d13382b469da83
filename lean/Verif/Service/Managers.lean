/-!
# Managers of service clients and servers

Code modelled: `/repo/ecal/service/ecal_service/src/server_manager.cpp` L60-117 and `client_manager.cpp`
L63-119 (`create_server`, `create_client`, `server_count`, `client_count`, `stop`; the two files are the same
code), the deleter in `server.cpp` L47-51; `/repo/ecal/core/src/service/ecal_service_singleton_manager.cpp`
L88-187 (`get_client_manager`, `get_server_manager`, `stop`, `reset`), `num_io_threads` in
`ecal_service_singleton_manager.h` L72.

Simplifications: the objects of a manager ("sessions") are numbers; one thread at a time executes the
manager's `stop`; of the two managers of the singleton one is modelled (the code for both is the same and
they are created, stopped and dropped together).
-/

namespace Ecal.Service.Managers

/-! ### One manager -/

structure Mgr where
  stopped : Bool := false
  live    : List Nat := []          -- keys of `sessions_`: objects with an owner
  gone    : List Nat := []          -- deleted objects
  halted  : List Nat := []          -- objects whose `stop` was called by the manager
  next    : Nat := 0
  pend    : Option (List Nat) := none     -- the copy of the map that `stop` goes through
deriving DecidableEq, Repr

inductive Step where
  | create                  -- `create_server`, `create_client`
  | delete (id : Nat)       -- the last owner releases the object: the deleter runs
  | stopBegin               -- L97-100
  | stopNext                -- L103-108, one turn
deriving DecidableEq, Repr

def step (m : Mgr) : Step → Option Mgr
  | .create => some (if m.stopped then m else { m with live := m.live ++ [m.next], next := m.next + 1 })
  | .delete id =>
    if id ∈ m.live then some { m with live := m.live.filter (· ≠ id), gone := id :: m.gone } else none
  | .stopBegin =>
    match m.pend with
    | some (_ :: _) => none
    | _ => some { m with stopped := true, pend := some m.live }
  | .stopNext =>
    match m.pend with
    | some (id :: r) => some { m with pend := some r, halted := if id ∈ m.live then id :: m.halted else m.halted }
    | _ => none

def run (m : Mgr) : List Step → Option Mgr
  | [] => some m
  | a :: r => (step m a).bind (fun m' => run m' r)

/-! ### The singleton -/

/-- An io thread. -/
inductive Io where
  | idle                   -- in `io_context::run`
  | user                   -- in a callback of the user
  | want                   -- in a callback, past the quick check (L93, L130), at the lock (L97, L134)
  | exited
deriving DecidableEq, Repr

structure Single where
  stopped  : Bool := false
  mgr      : Option Nat := none      -- the current manager
  gen      : Nat := 0                -- managers created so far
  io       : List Io := []
  stopping : Bool := false           -- a thread is inside `stop`, holding the mutex
  out      : List (Option Nat) := [] -- results of the getters (last first)
deriving DecidableEq, Repr

inductive SStep where
  | get                    -- an application thread gets the manager
  | stopBegin | stopEnd    -- an application thread stops
  | reset
  | ioBegin (i : Nat)      -- a handler begins to run user code
  | ioEnd (i : Nat)
  | ioCheck (i : Nat)      -- the callback asks for the manager: the quick check
  | ioLock (i : Nat)       -- … and the part under the lock
  | ioExit (i : Nat)       -- `io_context::run` returns: there is no work any more
  | ioStop (i : Nat)       -- the callback stops the singleton
deriving DecidableEq, Repr

inductive Out where
  | ok (s : Single)
  | blocked
  | selfJoin               -- a thread joins itself
deriving DecidableEq, Repr

/-- The part of a getter under the lock (L98-122). -/
def locked (s : Single) : Single :=
  if s.stopped then { s with out := none :: s.out }
  else
    let s1 := if s.mgr = none then { s with mgr := some s.gen, gen := s.gen + 1 } else s
    let s2 := if s1.io = [] then { s1 with io := List.replicate 4 .idle } else s1
    { s2 with out := s2.mgr :: s2.out }

def sstep (s : Single) : SStep → Out
  | .get => if s.stopping then .ok { s with out := none :: s.out } else .ok (locked s)
  | .stopBegin => if s.stopping then .blocked else .ok { s with stopped := true, stopping := true }
  | .stopEnd =>
    if s.stopping ∧ s.io.all (· = .exited) then
      .ok { s with stopping := false, mgr := none, io := [] }
    else .blocked
  | .reset => if s.stopping then .blocked else .ok { s with stopped := false }
  | .ioBegin i => if s.io[i]? = some .idle then .ok { s with io := s.io.set i .user } else .blocked
  | .ioEnd i => if s.io[i]? = some .user then .ok { s with io := s.io.set i .idle } else .blocked
  | .ioCheck i =>
    if s.io[i]? = some .user then
      .ok (if s.stopped then { s with out := none :: s.out } else { s with io := s.io.set i .want })
    else .blocked
  | .ioLock i =>
    if s.io[i]? = some .want ∧ s.stopping = false then .ok (locked { s with io := s.io.set i .user }) else .blocked
  | .ioExit i =>
    if s.io[i]? = some .idle ∧ s.stopping = true then .ok { s with io := s.io.set i .exited } else .blocked
  | .ioStop i => if s.io[i]? = some .user ∧ s.stopping = false then .selfJoin else .blocked

def srun (s : Single) : List SStep → Option Single
  | [] => some s
  | a :: r =>
    match sstep s a with
    | .ok s' => srun s' r
    | _ => none

end Ecal.Service.Managers
