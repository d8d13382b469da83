import Verif.Service.ClientSession
import Verif.Service.ClientSessionV0

/-!
# Stopping client sessions and waiting for the service threads

Code modelled: `/repo/ecal/service/ecal_service/src/client_manager.cpp` (`create_client` L63-87, `stop` L95-113),
`client_session.cpp` (`~ClientSession` L94-97, `stop` L155), and the end of the service threads in
`/repo/ecal/core/src/service/ecal_service_singleton_manager.cpp` (`stop` L162-181).

The manager remembers its sessions by weak pointers to the handles (`ClientSession`).  Giving up a handle stops the session
and makes the manager forget it; the implementation of the session lives on as long as an asynchronous operation refers to
it.  The service threads run until no operation is outstanding (`asio::io_context::run`; the managers give up their dummy
work in `stop` L112); `ServiceManager::stop` waits for them (L174) without stopping the `io_context`.

The sessions themselves are the machines of `Verif.Service.ClientSession` and `Verif.Service.ClientSessionV0`.

Simplifications: the manager's loop over its sessions (L105-110) is one step per session (`stopOne`), after the step `halt`
(L97-102) that keeps further sessions from being created; handles are not shared.
-/

namespace Ecal.Service.SessionStop

/-- A session of either protocol version. -/
inductive Sess where
  | v0 (s : ClientV0.State)
  | v1 (s : Client.State)
deriving DecidableEq, Repr

inductive SessStep where
  | v0 (a : ClientV0.Step)
  | v1 (a : Client.Step)
deriving DecidableEq, Repr

def Sess.step : Sess → SessStep → Sess
  | .v0 s, .v0 a => .v0 (ClientV0.step s a)
  | .v1 s, .v1 a => .v1 (Client.step s a)
  | .v0 s, .v1 _ => .v0 s
  | .v1 s, .v0 _ => .v1 s

/-- `ClientSession::stop`. -/
def Sess.stop : Sess → Sess
  | .v0 s => .v0 (ClientV0.step s .stop)
  | .v1 s => .v1 (Client.step s .stop)

/-- `ClientSession::ClientSession` (`client_session.cpp` L78-92): version 0, or anything else. -/
def Sess.new (version servers : Nat) : Sess :=
  if version = 0 then .v0 (ClientV0.init servers) else .v1 (Client.init servers)

structure Entry where
  s : Sess
  /-- the handle exists, i.e. the manager can still reach the session -/
  known : Bool
deriving DecidableEq, Repr

structure State where
  entries : List Entry
  /-- `stopped_` (L100) -/
  halted : Bool
deriving DecidableEq, Repr

inductive Label where
  /-- `create_client` -/
  | create (version servers : Nat)
  /-- the handle of a session is given up: `~ClientSession` -/
  | drop (i : Nat)
  /-- a step of a session -/
  | act (i : Nat) (a : SessStep)
  /-- `ClientManager::stop` begins (L97-102) -/
  | halt
  /-- `ClientManager::stop` stops a session (L107-109) -/
  | stopOne (i : Nat)
deriving DecidableEq, Repr

def Entry.act (a : SessStep) (e : Entry) : Entry := { e with s := e.s.step a }

/-- `stop` and the removal from the map of the manager. -/
def Entry.drop (e : Entry) : Entry := if e.known then { s := e.s.stop, known := false } else e

/-- L107-109: `lock` fails if the handle is gone. -/
def Entry.stopOne (e : Entry) : Entry := if e.known then { e with s := e.s.stop } else e

def step (st : State) : Label → State
  | .create version servers =>
    if st.halted then st
    else { st with entries := st.entries ++ [{ s := .new version servers, known := true }] }
  | .drop i => { st with entries := st.entries.modify i Entry.drop }
  | .act i a => { st with entries := st.entries.modify i (Entry.act a) }
  | .halt => { st with halted := true }
  | .stopOne i => { st with entries := st.entries.modify i Entry.stopOne }

def run (st : State) (ls : List Label) : State := ls.foldl step st

def init : State := { entries := [], halted := false }

end Ecal.Service.SessionStop
