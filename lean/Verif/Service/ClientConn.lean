import Verif.Common.AMap

/-!
# Connection bookkeeping of a service client

Code modelled: `/repo/ecal/core/src/service/ecal_service_client_impl.cpp`: `RegisterService` L405-427,
`GetRegistration` L430-439, `CheckForNewServices` L711-749, `CheckForDisconnectedServices` L751-780,
`IsConnected` L394-402, `Stop` L97-131; `/repo/ecal/core/src/service/ecal_clientgate.cpp`:
`ApplyServiceRegistration` L100-142, `GetServiceAttr` L144-158.

One client, both event callbacks registered.  A server is identified by its key
(`name:id@pid@host`).  Simplifications: the client manager is running (it stops with the process);
TCP sessions are the three states `connecting`, `connected`, `failed`, changed by the environment
according to C33/C34 (`failed` is final).  One step is one call of the bookkeeping functions (the
unsynchronised access of `CheckForDisconnectedServices` to the connected map is a separate finding, see
`C40_violated_race`).
-/

namespace Ecal.Service.ClientConn

open Ecal

inductive Sess where
  | connecting | connected | failed
deriving DecidableEq, Repr

inductive Event where
  | connected (key : Nat)
  | disconnected (key : Nat)
deriving DecidableEq, Repr

structure State where
  known     : List Nat := []                 -- keys in the gate's service map
  sessions  : AMap Nat Sess := []            -- `m_client_map`
  connected : List Nat := []                 -- keys of `m_connected_services_map`
  events    : List Event := []               -- what the callbacks saw, oldest first

inductive Step where
  | announce (key : Nat)     -- a registration of the server arrives
  | expire (key : Nat)       -- the server is dropped from the gate's service map
  | cycle                    -- `GetRegistration`
  | established (key : Nat)  -- the TCP session completes its handshake
  | failed (key : Nat)       -- the TCP session fails
deriving DecidableEq, Repr

/-- `RegisterService`. -/
def registerService (st : State) (key : Nat) : State :=
  if key ∈ st.connected then st
  else { st with events := st.events ++ [.connected key], connected := key :: st.connected }

/-- One iteration of `CheckForNewServices`. -/
def checkNew (st : State) (key : Nat) : State :=
  match st.sessions.find key with
  | none => { st with sessions := st.sessions.set key .connecting }
  | some _ => st

/-- One iteration of `CheckForDisconnectedServices`. -/
def checkDisc (st : State) (e : Nat × Sess) : State :=
  if e.2 = .failed then
    if e.1 ∈ st.connected then
      { st with events := st.events ++ [.disconnected e.1]
                connected := st.connected.filter (fun k => k != e.1) }
    else st
  else st

def step (st : State) : Step → State
  | .announce key =>
    registerService { st with known := if key ∈ st.known then st.known else key :: st.known } key
  | .expire key => { st with known := st.known.filter (fun k => k != key) }
  | .cycle =>
    let st := st.known.foldl checkNew st
    st.sessions.foldl checkDisc st
  | .established key =>
    match st.sessions.find key with
    | some .connecting => { st with sessions := st.sessions.set key .connected }
    | _ => st
  | .failed key =>
    match st.sessions.find key with
    | some _ => { st with sessions := st.sessions.set key .failed }
    | none => st

def run (st : State) (steps : List Step) : State := steps.foldl step st

/-! ## Which locks protect the connected map -/

inductive Lock where
  | clientMap | connectedMap | eventMap
deriving DecidableEq, Repr

/-- One access to `m_connected_services_map`: does it write, and which locks are held. -/
structure Access where
  writes : Bool
  locks  : List Lock
deriving DecidableEq, Repr

inductive Fn where
  | registerService          -- receive thread (L405-427)
  | checkForDisconnected     -- registration thread (L751-780)
  | isConnected              -- application thread (L394-402)
deriving DecidableEq, Repr

def accesses : Fn → List Access
  | .registerService => [⟨false, [.connectedMap]⟩, ⟨true, [.connectedMap]⟩]
  | .checkForDisconnected => [⟨false, [.clientMap]⟩, ⟨true, [.clientMap]⟩]
  | .isConnected => [⟨false, [.connectedMap]⟩]

/-- `IsConnected`. -/
def isConnected (st : State) : Bool := !st.connected.isEmpty

end Ecal.Service.ClientConn
