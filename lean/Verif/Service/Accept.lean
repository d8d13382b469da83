/-!
# Accepting connections of service clients

Code modelled: `/repo/ecal/service/ecal_service/src/server_impl.cpp`: `start_accept` L133-203,
`wait_for_next_client` L205-294, `stop` L296-320.

The acceptor of the operating system completes an outstanding `async_accept` with a connection or with an
error; the handler runs later on an io thread, also after `stop` was called in between.  Simplifications: the
sessions of the server are numbers; a session runs until its peer disconnects or it is stopped; opening,
binding and listening succeeded (their errors are only logged, L149-199); the server object lives until the
handler has run (the handler holds it from L268 on, so it may be past that line when the owner stops the
server and drops it).
-/

namespace Ecal.Service.Accept

/-- A completed `async_accept` whose handler has not run yet. -/
inductive Ready where
  | conn (id : Nat)
  | error
deriving DecidableEq, Repr

structure St where
  isOpen  : Bool := true             -- the acceptor
  armed   : Bool := true             -- `async_accept` is outstanding
  ready   : Option Ready := none
  backlog : Nat := 0                 -- clients that connected and were not yet accepted
  running : List Nat := []           -- started sessions
  next    : Nat := 0
deriving DecidableEq, Repr

inductive Step where
  | connect                 -- a client connects
  | accept                  -- the operating system completes the accept
  | fail                    -- … with an error (too many open files, connection aborted, …)
  | handler                 -- the handler runs (L256-292)
  | leave (id : Nat)        -- the client of a session disconnects
  | stop
deriving DecidableEq, Repr

/-- `wait_for_next_client`: on a closed acceptor the operation completes with an error. -/
def waitNext (s : St) : St := if s.isOpen then { s with armed := true } else { s with ready := some .error }

def step (s : St) : Step → Option St
  | .connect => if s.isOpen then some { s with backlog := s.backlog + 1 } else none
  | .accept =>
    if s.armed = true ∧ 0 < s.backlog then
      some { s with armed := false, backlog := s.backlog - 1, ready := some (.conn s.next), next := s.next + 1 }
    else none
  | .fail => if s.armed then some { s with armed := false, ready := some .error } else none
  | .handler =>
    match s.ready with
    | some (.conn id) => some (waitNext { s with ready := none, running := id :: s.running })
    | some .error => some { s with ready := none }
    | none => none
  | .leave id => if id ∈ s.running then some { s with running := s.running.filter (· ≠ id) } else none
  | .stop =>
    some { s with
      isOpen := false, armed := false, running := [], backlog := 0,
      ready := if s.armed then some .error else s.ready }

def run (s : St) : List Step → Option St
  | [] => some s
  | a :: r => (step s a).bind (fun s' => run s' r)

end Ecal.Service.Accept
