/-!
# Sending registrations: `CRegistrationProvider` and `CCallbackThread`

core/src/registration/ecal_registration_provider.cpp, core/src/util/ecal_thread.h.
Threads: the registration thread and any number of application/receiver threads.  Sections
under a mutex are atomic steps.
-/

namespace Ecal.Provider

/-- What is sent: registration or unregistration of an entity (publisher, subscriber, server,
client), identified by its unique id; process registration and unregistration. -/
inductive Smp where
  | reg (e : Nat)
  | unreg (e : Nat)
  | procReg
  | procUnreg
deriving Repr, DecidableEq

/-- Program counter of the registration thread. -/
inductive Pc where
  | waiting                      -- in `wait_for` (ecal_thread.h L122-136)
  | running                      -- `RegisterSendThread` entered (L141)
  | collected (l : List Smp)     -- L146-167 done
  | sentList                     -- L170 done
  | dead                         -- loop left (ecal_thread.h L126-129)
deriving Repr, DecidableEq

/-- `gate` are the entities in the publisher/subscriber/service/client gates, `pending` is
`m_applied_sample_list`, `trace` everything sent so far, `used` (bookkeeping only) the ids
given to entities so far. -/
structure State where
  gate    : List Nat
  pending : List Smp
  pc      : Pc
  trigger : Bool
  stop    : Bool
  trace   : List Smp
  used    : List Nat
deriving Repr, DecidableEq

def init : State :=
  { gate := [], pending := [], pc := .waiting, trigger := false, stop := false, trace := [], used := [] }

inductive Op where
  | create (e : Nat) (announce : Bool)
                           -- entity created: enters its gate; service clients also call
                           -- `RegisterSample` (L111-122) at once
  | reRegister (e : Nat)   -- `Register()` of a live entity, e.g. when a layer is started
  | leaveGate (e : Nat)    -- first part of destruction: removed from its gate (`Destroy`: pubsub/
                           -- ecal_publisher.cpp L114, ecal_subscriber.cpp L107, service/
                           -- ecal_service_server.cpp L99, ecal_service_client.cpp L121)
  | unregister (e : Nat)   -- second part: `UnregisterSample` (L125-133)
  | stopBegin              -- `Stop` L96-99: process unregistration and trigger
  | stopFlag               -- `CCallbackThread::stop` L73-79
  | wake                   -- registration thread leaves `wait_for`
  | collect                -- L146-167
  | sendList               -- L170
  | sendApplied            -- L173-177
deriving Repr, DecidableEq

/-- Steps that are not possible in a state leave it unchanged. -/
def step (s : State) : Op → State
  | .create e announce =>
    if e ∈ s.used then s
    else if announce then
      { s with gate := e :: s.gate, pending := s.pending ++ [.reg e], trigger := true, used := e :: s.used }
    else { s with gate := e :: s.gate, used := e :: s.used }
  | .reRegister e =>
    if e ∈ s.gate then { s with pending := s.pending ++ [.reg e], trigger := true } else s
  | .leaveGate e => { s with gate := s.gate.filter (fun x => x ≠ e) }
  | .unregister e =>
    if e ∈ s.used ∧ e ∉ s.gate then { s with pending := s.pending ++ [.unreg e] } else s
  | .stopBegin => { s with pending := s.pending ++ [.procUnreg], trigger := true }
  | .stopFlag => { s with stop := true }
  | .wake =>
    match s.pc with
    | .waiting => if s.stop then { s with pc := .dead } else { s with pc := .running, trigger := false }
    | _ => s
  | .collect =>
    match s.pc with
    | .running => { s with pc := .collected (.procReg :: s.gate.map .reg) }
    | _ => s
  | .sendList =>
    match s.pc with
    | .collected l => { s with pc := .sentList, trace := s.trace ++ l }
    | _ => s
  | .sendApplied =>
    match s.pc with
    | .sentList => { s with pc := .waiting, trace := s.trace ++ s.pending, pending := [] }
    | _ => s

def run (s : State) (h : List Op) : State := h.foldl step s

end Ecal.Provider
