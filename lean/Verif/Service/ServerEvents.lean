import Verif.Common.AMap

/-!
# Connection bookkeeping and notifications of a service server

Code modelled:
* `/repo/ecal/service/ecal_service/src/server_impl.cpp`: `is_connected` L91-94,
  `get_connection_count` L96-112, the session list and `shutdown_callback` in
  `wait_for_next_client` L195-285
* `/repo/ecal/core/src/service/ecal_service_server_impl.cpp`: `EventCallback` L482-543,
  `AddEventCallback` L253-268, `RemEventCallback` L271-286
* session side: `server_session_impl_v1.cpp` (state set first, then the event callback, then the
  shutdown callback), `server_session_impl_v0.cpp` likewise.

The service layer runs with four IO threads (`ecal_service_singleton_manager.h` L72), so the handlers
of different sessions interleave: setting the session state and running `EventCallback` are two
steps.

Simplifications: the server pointers (`m_tcp_server_v0/1`) are assigned before the first session
event; the two lists of sessions are one list tagged with the protocol.
-/

namespace Ecal.Service.ServerEvents

inductive Proto where
  | v0 | v1
deriving DecidableEq, Repr

/-- State of a session: accepted but not yet established, established, failed. -/
inductive Sess where
  | pending | connected | failed
deriving DecidableEq, Repr

inductive Event where
  | connected | disconnected
deriving DecidableEq, Repr

/-- Entry of `m_event_callback_map`; removing stores an empty `std::function` (L283). -/
inductive Handler where
  | absent | empty | fn
deriving DecidableEq, Repr

structure State where
  sessions : AMap Nat (Proto × Sess) := []
  flag0    : Bool := false             -- `m_connected_v0`
  flag1    : Bool := false             -- `m_connected_v1`
  waiting  : List (Nat × Event) := []  -- session handlers about to run `EventCallback`
  onConn   : Handler := .absent
  onDisc   : Handler := .absent
  notes    : List Event := []          -- notifications given to the application
  crashed  : Bool := false             -- an empty `std::function` was called (`std::bad_function_call`)
deriving DecidableEq, Repr

/-- `ServerImpl::is_connected` L91-112: counts every session that has not failed, also those that are
still in the handshake. -/
def isConnected (st : State) (p : Proto) : Bool :=
  st.sessions.any (fun x => x.2.1 == p && x.2.2 != .failed)

def handlerOf (st : State) : Event → Handler
  | .connected => st.onConn
  | .disconnected => st.onDisc

/-- `EventCallback` L482-543: each flag follows `is_connected`; one notification of the type of the
triggering event if a flag changed. -/
def eventCallback (st : State) (e : Event) : State :=
  let c0 := isConnected st .v0
  let c1 := isConnected st .v1
  let changed := st.flag0 != c0 || st.flag1 != c1
  let st' := { st with flag0 := c0, flag1 := c1 }
  if changed then
    match handlerOf st e with
    | .absent => st'
    | .empty => { st' with crashed := true }
    | .fn => { st' with notes := st.notes ++ [e] }
  else st'

inductive Step where
  | addCallback (e : Event)
  | remCallback (e : Event)
  | accept (id : Nat) (p : Proto)
  | established (id : Nat)       -- handshake done (v1) or session started (v0): state only
  | refused (id : Nat)           -- handshake failed: no event, session removed
  | lost (id : Nat)              -- connection lost: state only
  | callback (k : Nat)           -- the `k`-th waiting handler runs `EventCallback`
deriving DecidableEq, Repr

def setHandler (st : State) (e : Event) (h : Handler) : State :=
  match e with
  | .connected => { st with onConn := h }
  | .disconnected => { st with onDisc := h }

def step (st : State) : Step → State
  | .addCallback e => setHandler st e .fn
  | .remCallback e => setHandler st e .empty
  | .accept id p =>
    if st.sessions.find id = none then { st with sessions := st.sessions.set id (p, .pending) } else st
  | .established id =>
    match st.sessions.find id with
    | some (p, .pending) =>
      { st with sessions := st.sessions.set id (p, .connected), waiting := st.waiting ++ [(id, .connected)] }
    | _ => st
  | .refused id =>
    match st.sessions.find id with
    | some (_, .pending) => { st with sessions := st.sessions.erase id }
    | _ => st
  | .lost id =>
    match st.sessions.find id with
    | some (p, .connected) =>
      -- the session reads only after its `connected` callback has returned
      if (id, .connected) ∈ st.waiting then st
      else { st with sessions := st.sessions.set id (p, .failed),
                     waiting := st.waiting ++ [(id, .disconnected)] }
    | _ => st
  | .callback k =>
    match st.waiting[k]? with
    | none => st
    | some (id, e) =>
      let st' := eventCallback { st with waiting := st.waiting.eraseIdx k } e
      -- `shutdown_callback_` removes the session after the event callback
      if e = .disconnected then { st' with sessions := st'.sessions.erase id } else st'

def run (st : State) (steps : List Step) : State := steps.foldl step st

/-- The application has registered both notifications. -/
def start : State := { onConn := .fn, onDisc := .fn }

end Ecal.Service.ServerEvents
