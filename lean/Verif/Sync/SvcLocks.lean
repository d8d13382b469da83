import Verif.Sync.LockOrder

/-!
# The locks of clients and servers

Which locks the library takes for clients and servers, in which order and around which user callbacks, as in
`Verif/Sync/ApiLocks.lean` for publishers and subscribers.  A user callback is a list of API calls (`Op`); a blocking
call and a failing call run callbacks themselves, so calls are nested.

Code modelled: `/repo/ecal/core/src/service/ecal_service_client_impl.cpp`, `/repo/ecal/core/src/service/ecal_service_server_impl.cpp`,
`/repo/ecal/core/src/service/ecal_clientgate.cpp`, `/repo/ecal/core/src/service/ecal_servicegate.cpp`,
`/repo/ecal/core/src/service/ecal_service_singleton_manager.cpp`.

Simplifications:
* Locks that are never held while another lock is taken and around which no callback runs are left out (those of
  sessions, acceptors and the two managers below the singleton).
* A blocking call waits for nothing (the waiting is the subject of C34 and C77), and stopping the service threads
  does not wait for them (C85).
* A loop over the known servers of a client is one turn.
* Every choice of branches is allowed, it is a part of the call or work item.
* Publishers and subscribers are not included.
-/

namespace Ecal.Sync.SvcLocks
open Ecal.Sync.Locks Ecal.Sync.LockOrder

/-- The locks; `c` numbers clients, `s` servers.
* `applier`: `m_callback_custom_apply_sample_map_mtx` (ecal/core/src/registration/ecal_registration_sample_applier.cpp L53)
* `clientSet`, `svcMap`: `m_client_set_sync`, `m_service_register_map_sync` (ecal/core/src/service/ecal_clientgate.h L64, L68)
* `serverSet`: `m_service_set_sync` (ecal/core/src/service/ecal_servicegate.h L55)
* `mgr`: `singleton_mutex` (ecal/core/src/service/ecal_service_singleton_manager.h L74)
* `regList`: `m_applied_sample_list_mtx` (ecal/core/src/registration/ecal_registration_provider.h L61)
* `cMap`, `cResp`, `cEv`, `cConn`, `cMeth`: `m_client_map_sync`, `m_response_callback_sync`, `m_event_callback_map_sync`,
  `m_connected_services_map_sync`, `m_method_sync` (ecal/core/src/service/ecal_service_client_impl.h L113-133)
* `sMeth`, `sEv`, `sConn`: `m_method_map_sync`, `m_event_callback_map_sync`, `m_connected_mutex`
  (ecal/core/src/service/ecal_service_server_impl.h L120-127) -/
inductive Lk where
  | applier | clientSet | svcMap | serverSet | mgr | regList
  | cMap (c : Nat) | cResp (c : Nat) | cEv (c : Nat) | cConn (c : Nat) | cMeth (c : Nat)
  | sMeth (s : Nat) | sEv (s : Nat) | sConn (s : Nat)
deriving DecidableEq, Repr

/-- What a user may call. -/
inductive Op where
  | clientCreate
  | clientDestroy (c : Nat)
  /-- Add or remove the response callback. -/
  | setResponse (c : Nat)
  /-- Add or remove an event callback of a client. -/
  | setClientEvent (c : Nat)
  /-- A blocking call; `cb`: the variant with the response callback, which makes the calls `resp`; `limit`: there is a
  time limit, and the timeout callback makes the calls `tmo`. -/
  | call (c : Nat) (cb : Bool) (resp : List Op) (limit : Bool) (tmo : List Op)
  | callAsync (c : Nat)
  /-- An asynchronous call that fails at once: the response callback makes the calls `resp`. -/
  | callFail (c : Nat) (resp : List Op)
  /-- `IsConnected` of a client -/
  | clientConnected (c : Nat)
  | serverCreate
  | serverDestroy (s : Nat)
  /-- Add or remove a method, add a description. -/
  | setMethod (s : Nat)
  /-- Add or remove an event callback of a server. -/
  | setServerEvent (s : Nat)
  /-- `Finalize` with the clients and servers that are left. -/
  | finalize (cs ss : List Nat)

/-- `Stop` of a client; ecal_service_client_impl.cpp L97-131 -/
def clientStop (c : Nat) : List (Act Lk) := touch (.cMap c) ++ touch (.cResp c) ++ touch (.cEv c) ++ touch .regList

/-- `Stop` of a server; ecal_service_server_impl.cpp L134-173 -/
def serverStop (s : Nat) : List (Act Lk) := touch (.sMeth s) ++ touch (.sEv s) ++ touch .regList ++ touch (.sConn s)

/-- `CheckForNewServices`; ecal_service_client_impl.cpp L711-749, ecal_clientgate.cpp L147 -/
def newServices (c : Nat) : List (Act Lk) := sect .svcMap .shared [] ++ sect (.cMap c) .excl (touch .mgr)

/-- Sending the requests; ecal_service_client_impl.cpp L339-389, L464-563 -/
def sendCalls (c : Nat) : List (Act Lk) := sect .svcMap .shared [] ++ sect (.cMap c) .excl (touch (.cMeth c))

mutual
/-- The locks of an API call.
* `clientCreate`, `clientDestroy`: ecal_service_client.cpp L95-128, ecal_service_client_impl.cpp L92, ecal_clientgate.cpp L71, L83
* `setResponse`, `setClientEvent`: ecal_service_client_impl.cpp L143, L151, L163, L181
* `call`: ecal_service_client_impl.cpp L193-297, L442-595
* `callAsync`, `callFail`: ecal_service_client_impl.cpp L300-392, L782-795
* `clientConnected`: ecal_service_client_impl.cpp L395-402
* `serverCreate`, `serverDestroy`: ecal_service_server.cpp L73-106, ecal_service_server_impl.cpp L76, ecal_servicegate.cpp L68, L80
* `setMethod`, `setServerEvent`: ecal_service_server_impl.cpp L178, L209, L241, L259, L277
* `finalize`: ecal/core/src/ecal_globals.cpp L292-311, ecal_clientgate.cpp L52-64, ecal_servicegate.cpp L49-61 -/
def Op.acts : Op → List (Act Lk)
  | .clientCreate => touch .regList ++ touch .clientSet
  | .clientDestroy c => touch .clientSet ++ clientStop c
  | .setResponse c => touch (.cResp c)
  | .setClientEvent c => touch (.cEv c)
  | .call c cb resp limit tmo =>
    newServices c ++ sendCalls c ++ (if cb then sect (.cResp c) .excl (opsActs resp) else []) ++
      (if limit then sect (.cEv c) .excl (opsActs tmo) else [])
  | .callAsync c => newServices c ++ sendCalls c
  | .callFail c resp => sect (.cResp c) .excl (opsActs resp)
  | .clientConnected c => touch (.cConn c)
  | .serverCreate => touch .mgr ++ touch .serverSet
  | .serverDestroy s => touch .serverSet ++ serverStop s
  | .setMethod s => touch (.sMeth s)
  | .setServerEvent s => touch (.sEv s)
  | .finalize cs ss =>
    touch .mgr ++ sect .clientSet .shared (cs.flatMap clientStop) ++ sect .serverSet .shared (ss.flatMap serverStop) ++
      touch .applier ++ touch .regList

/-- A callback. -/
def opsActs : List Op → List (Act Lk)
  | [] => []
  | o :: r => o.acts ++ opsActs r
end

/-- An event: its callback runs with the lock of the callback map held; `none`: the event does not happen. -/
def event (l : Lk) : Option (List Op) → List (Act Lk)
  | none => []
  | some ops => sect l .excl (opsActs ops)

/-- What a thread has to do. -/
inductive Work where
  /-- A thread of the user. -/
  | user (ops : List Op)
  /-- A service thread: the response of an asynchronous call; ecal_service_client_impl.cpp L352-379 -/
  | response (c : Nat) (ops : List Op)
  /-- A service thread: a request and its method; ecal_service_server_impl.cpp L400-480 -/
  | request (s : Nat) (ops : List Op)
  /-- A service thread: an event of a server; ecal_service_server_impl.cpp L482-543 -/
  | serverEvent (s : Nat) (ops : Option (List Op))
  /-- The registration of a server seen by clients, with the connected event; ecal_clientgate.cpp L120-141,
  ecal_service_client_impl.cpp L405-427 -/
  | regService (cs : List (Nat × Option (List Op)))
  /-- The registration cycle, with the disconnected events; ecal_servicegate.cpp L102-106, ecal_clientgate.cpp L165-169,
  ecal_service_client_impl.cpp L430-439, L751-780, L654; ecal_service_server_impl.cpp L339;
  ecal/core/src/registration/ecal_registration_provider.cpp L141-178 -/
  | cycle (ss : List Nat) (cs : List (Nat × Option (List Op)))

/-- One client that sees a server. -/
def seeService (p : Nat × Option (List Op)) : List (Act Lk) := sect (.cConn p.1) .excl (event (.cEv p.1) p.2)

/-- One client in the registration cycle. -/
def cycleClient (p : Nat × Option (List Op)) : List (Act Lk) :=
  newServices p.1 ++ sect (.cMap p.1) .excl (event (.cEv p.1) p.2) ++ touch (.cMeth p.1)

def Work.acts : Work → List (Act Lk)
  | .user ops => opsActs ops
  | .response c ops => sect (.cResp c) .excl (opsActs ops)
  | .request s ops => touch (.sMeth s) ++ opsActs ops
  | .serverEvent s ops => touch (.sConn s) ++ event (.sEv s) ops
  | .regService cs => sect .applier .excl (touch .svcMap ++ sect .clientSet .shared (cs.flatMap seeService))
  | .cycle ss cs =>
    sect .serverSet .shared (ss.flatMap (fun s => touch (.sMeth s))) ++ sect .clientSet .shared (cs.flatMap cycleClient) ++
      touch .regList

/-- The threads at their start. -/
def startAll (ws : List Work) : Sys Lk := start (ws.map Work.acts)

end Ecal.Sync.SvcLocks
