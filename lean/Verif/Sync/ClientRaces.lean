import Verif.Sync.Races

/-!
# What the threads of a process do with the data of one service client

For every operation on a service client - calls of the user, responses, registrations of servers, the registration cycle, the end of the
client - the variables it touches, in program order, and the locks it holds meanwhile.

Simplifications:
* One client; its data is not touched by operations on other ones.
* Callbacks make no calls to the library; a build without the additional log lines of debug builds.
* Atomic variables (`m_created` of the implementation) cannot race and are left out.
* A call reaches one server; more of them repeat the same accesses. The responses of a blocking call are kept in variables of this call
  and are the subject of `Verif/Service/Blocking.lean`.
* `member` is not a lock of the code but the membership in the set of the gate, as in `Verif/Sync/WriterRaces.lean`.
-/

namespace Ecal.Sync.ClientRaces
open Ecal.Sync.Races

/-- * `applier`: `m_callback_custom_apply_sample_map_mtx` (ecal/core/src/registration/ecal_registration_sample_applier.cpp L53)
* `gate`, `svcMapL`: `m_client_set_sync`, `m_service_register_map_sync` (ecal/core/src/service/ecal_clientgate.h L64-68)
* `clientL`, `respL`, `evL`, `connL`, `methodL`: `m_client_map_sync`, `m_response_callback_sync`, `m_event_callback_map_sync`,
  `m_connected_services_map_sync`, `m_method_sync` (ecal/core/src/service/ecal_service_client_impl.h L113-133)
* `regL`: `m_applied_sample_list_mtx` (ecal/core/src/registration/ecal_registration_provider.h L61) -/
inductive Lk where
  | applier | gate | member | svcMapL | clientL | respL | evL | connL | methodL | regL
deriving DecidableEq, Repr

/-- * `handle`: `m_service_client_impl`, `m_created` of the client (ecal/core/include/ecal/ecal_client.h L201-202)
* `clientMap`, `respCb`, `evMap`, `connMap`, `name`, `sid`, `host`: members of the implementation
  (ecal/core/src/service/ecal_service_client_impl.h L114-131)
* `methods`: its `m_method_information_map` and `m_method_call_count_map` (L134-137)
* `svcMap`: `m_service_register_map` of the gate
* `regList`: `m_applied_sample_list` of the registration provider -/
inductive Var where
  | handle | clientMap | respCb | evMap | connMap | name | sid | host | methods | svcMap | regList
deriving DecidableEq, Repr

abbrev Prog := List (Act Lk Var)

def rd (v : Var) : Prog := [.rd v]

def wr (v : Var) : Prog := [.wr v]

def under (l : Lk) (p : Prog) : Prog := sect l .excl p

inductive Op where
  /-- A blocking call. -/
  | call
  | callAsync
  /-- The response of an asynchronous call arrives. -/
  | response
  | setHost
  /-- Add or remove the response callback. -/
  | setResp
  /-- Add or remove an event callback. -/
  | setEvent
  | isConnected
  | getName
  | destroy
  /-- `Finalize` stops the clients that are left. -/
  | finalize
  /-- A registration of a server of this service arrives; `new`: for the first time. -/
  | register (new : Bool)
  /-- The registration cycle; `failed`: it finds the connection to a known server failed. -/
  | cycle (failed : Bool)
deriving DecidableEq, Repr

/-- `GetServiceAttr`: ecal/core/src/service/ecal_clientgate.cpp L144-158 -/
def servers : Prog := rd .name ++ sect .svcMapL .shared (rd .svcMap)

/-- `CheckForNewServices`: ecal/core/src/service/ecal_service_client_impl.cpp L711-749 -/
def checkNew : Prog := servers ++ under .clientL (rd .clientMap ++ wr .clientMap)

/-- The common part of the calls: ecal/core/src/service/ecal_service_client_impl.cpp L316-389, L449-563 -/
def callAll : Prog :=
  rd .name ++ checkNew ++ servers ++ rd .host ++ under .clientL (rd .clientMap ++ under .methodL (wr .methods))

/-- `CheckForDisconnectedServices`: ecal/core/src/service/ecal_service_client_impl.cpp L751-780. The map of the connected services is used
without its lock (L761, L776). -/
def checkGone (failed : Bool) : Prog :=
  under .clientL (rd .clientMap ++ (if failed then rd .connMap ++ under .evL (rd .evMap ++ rd .name) ++ wr .connMap else []))

/-- `Stop`: ecal/core/src/service/ecal_service_client_impl.cpp L97-131, L675-692, L703-709 -/
def stop : Prog :=
  under .clientL (wr .clientMap) ++ under .respL (wr .respCb) ++ under .evL (wr .evMap) ++ rd .name ++ rd .sid ++
  under .regL (wr .regList) ++ wr .name ++ wr .sid ++ wr .host

/-- `GetRegistrationSample`: ecal/core/src/service/ecal_service_client_impl.cpp L637-673 -/
def sample : Prog := rd .sid ++ rd .name ++ under .methodL (rd .methods)

/-- The gate finds the client in its set. -/
def found (p : Prog) : Prog := sect .member .shared p

/-- * the calls of the user: ecal/core/src/service/ecal_service_client.cpp L137-262,
  ecal/core/src/service/ecal_service_client_impl.cpp L133-402
* `response`: ecal_service_client_impl.cpp L349-380
* `destroy`: ecal_service_client.cpp L115-128, ecal/core/src/service/ecal_clientgate.cpp L77-98
* `finalize`: ecal_clientgate.cpp L52-64 (the lock of the gate is shared)
* `register`: ecal/core/src/registration/ecal_registration_sample_applier.cpp L52-58, ecal_clientgate.cpp L120-141,
  ecal_service_client_impl.cpp L405-427
* `cycle`: ecal_clientgate.cpp L160-170, ecal_service_client_impl.cpp L430-439 -/
def Op.acts : Op → Prog
  | .call => rd .handle ++ callAll ++ under .respL (rd .respCb) ++ under .evL (rd .evMap ++ rd .name)
  | .callAsync => rd .handle ++ callAll
  | .response => under .respL (rd .respCb)
  | .setHost => rd .handle ++ wr .host
  | .setResp => rd .handle ++ under .respL (wr .respCb)
  | .setEvent => rd .handle ++ under .evL (wr .evMap)
  | .isConnected => rd .handle ++ under .connL (rd .connMap)
  | .getName => rd .handle ++ rd .name
  | .destroy => rd .handle ++ wr .handle ++ under .gate [.acq .member .excl] ++ stop ++ wr .handle
  | .finalize => sect .gate .shared (found stop)
  | .register new =>
    under .applier (under .svcMapL (wr .svcMap) ++ sect .gate .shared (found
      (rd .name ++ under .connL (rd .connMap ++ (if new then under .evL (rd .evMap ++ rd .name) ++ wr .connMap else [])))))
  | .cycle failed => sect .gate .shared (found (checkNew ++ checkGone failed ++ sample))

/-- Threads that make sequences of operations. -/
def startAll (ts : List (List Op)) : Sys Lk Var := start (ts.map (fun ops => ops.flatMap Op.acts))

end Ecal.Sync.ClientRaces
