/-!
# Service calls made by service callbacks

Code modelled: `/repo/ecal/core/src/service/ecal_service_singleton_manager.h` L72 (four io threads for all
clients and servers of a process), `/repo/ecal/core/src/service/ecal_service_singleton_manager.cpp` L108-115,
L145-152; `/repo/ecal/service/ecal_service/src/server_session_impl_v1.cpp` L275-300 (the callback of the user
runs on an io thread) and `/repo/ecal/core/src/service/ecal_service_client_impl.cpp` L442-537 (a blocking call
waits until an io thread has processed the response, without a limit unless the caller gives one).

A call is to a service of the same process.  Simplifications: each call goes through its own client session
(the calls of one session would wait for each other as well); writing the response and reading the request
take no thread by themselves, processing a response needs a free thread at that moment.
-/

namespace Ecal.Service.Pool

inductive Call where
  | pending                               -- the request is waiting for an io thread
  | running                               -- the callback of the user occupies an io thread
  | blocked (child : Nat) (timed : Bool)  -- … and waits for its own call, with or without a time limit
  | answered                              -- the callback has returned, the response is to be processed
  | finished
deriving DecidableEq, Repr

/-- `num_io_threads` (ecal_service_singleton_manager.h L72). -/
def threads : Nat := 4

/-- The call occupies an io thread. -/
def Call.busy : Call → Bool
  | .running => true
  | .blocked _ _ => true
  | _ => false

def used (cs : List Call) : Nat := cs.countP Call.busy

/-- The caller of `j` goes on. -/
def unblock (j : Nat) : Call → Call
  | .blocked c t => if c = j then .running else .blocked c t
  | x => x

inductive Step where
  | call                              -- a thread of the user calls a service
  | serve (i : Nat)                   -- an io thread takes a request
  | nest (i : Nat) (timed : Bool)     -- a callback makes a blocking call
  | ret (i : Nat)                     -- a callback returns
  | deliver (i : Nat)                 -- an io thread processes a response
  | giveUp (i : Nat)                  -- the time limit of a nested call is over
deriving DecidableEq, Repr

/-- The steps of the library and of callbacks that return. -/
def Step.inner : Step → Bool
  | .serve _ => true
  | .ret _ => true
  | .deliver _ => true
  | .giveUp _ => true
  | _ => false

def step (cs : List Call) : Step → Option (List Call)
  | .call => some (cs ++ [.pending])
  | .serve i => if cs[i]? = some .pending ∧ used cs < threads then some (cs.set i .running) else none
  | .nest i t => if cs[i]? = some .running then some (cs.set i (.blocked cs.length t) ++ [.pending]) else none
  | .ret i => if cs[i]? = some .running then some (cs.set i .answered) else none
  | .deliver i =>
    if cs[i]? = some .answered ∧ used cs < threads then some ((cs.set i .finished).map (unblock i)) else none
  | .giveUp i =>
    match cs[i]? with
    | some (.blocked _ true) => some (cs.set i .running)
    | _ => none

def run (cs : List Call) : List Step → Option (List Call)
  | [] => some cs
  | a :: r => (step cs a).bind (fun cs' => run cs' r)

end Ecal.Service.Pool
